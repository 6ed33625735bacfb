import Verif.Lemmas.WfTables
import Verif.Props.Nfc
import Verif.Props.Wellformed
/-!
# Reading normalization (C75, C76, C77)
-/
namespace Nisaba.Props
open Nisaba

private theorem sigmaStar_file (σ : Nat → Prop) :
    readingNormFile none σ = some (Rel.sigmaStar σ) := rfl

private theorem reading_noConflict {g : ReadingGrammar} (hg : g ∈ readingGrammars) :
    noConflict g.rules = true := by
  have h : readingGrammars.all (fun g => noConflict g.rules) = true := by decide +kernel
  exact List.all_eq_true.1 h g hg

private theorem reading_graph {g : ReadingGrammar} (hg : g ∈ readingGrammars) {σ : Nat → Prop}
    (hσ : Writes σ g.rules) : ∃ R, g.fst σ = some R ∧ Graph σ R (applyRules g.rules) ∧
      MapsOver σ σ (applyRules g.rules) := by
  obtain ⟨R, hR, gR, mR⟩ := noConflict_graph (reading_noConflict hg) hσ
  simp only [readingGrammars, List.mem_cons, List.not_mem_nil, or_false] at hg
  rcases hg with rfl | rfl | rfl | rfl
  · refine ⟨Rel.comp (Rel.sigmaStar σ) R, ?_, ?_, mR⟩
    · have : readingNormFile (some Data.devaHiReadingNorm) σ = some R := hR
      simp only [ReadingGrammar.fst, readingHi, this, sigmaStar_file, composeRels]
    · exact (sigmaStar_graph σ).comp gR (fun s hs => hs)
  all_goals
    refine ⟨R, ?_, gR, mR⟩
    first
      | (have : readingNormFile (some Data.beng.readingNorm) σ = some R := hR
         simp only [ReadingGrammar.fst, readingBeng, this, composeRels])
      | (have : readingNormFile (some Data.lepc.readingNorm) σ = some R := hR
         simp only [ReadingGrammar.fst, readingLepc, this, composeRels])
      | (have : readingNormFile (some Data.mlym.readingNorm) σ = some R := hR
         simp only [ReadingGrammar.fst, readingMlym, this, composeRels])

private theorem abjad_clean {l : AbjadData} (hl : l ∈ Data.abjadLangs) :
    cleanRules l.readingNorm = true := List.all_eq_true.1 readingAbjad_clean l hl

private theorem abjad_graph {l : AbjadData} (hl : l ∈ Data.abjadLangs) {σ : Nat → Prop}
    (hσ : Writes σ l.readingNorm) : ∃ R, Abjad.readingNormFst l σ = some R ∧
      Graph σ R (applyRules l.readingNorm) ∧ MapsOver σ σ (applyRules l.readingNorm) := by
  obtain ⟨sets, hs⟩ := cleanRules_ok (abjad_clean hl)
  have e : Abjad.readingNormFst l σ = some (rewriteAndCompose sets σ) := by
    simp [Abjad.readingNormFst, fstFromRules, hs]
  refine ⟨_, e, fun s t => fstFromRules_iff (cleanRules_nonempty (abjad_clean hl)) hσ e, ?_⟩
  intro s hs'
  unfold applyRules stages
  rw [hs]
  exact over_scanAll (fun st hst p hp => hσ p (mem_sets_rules hs hst hp)) hs'

/-- The alphabets of the code contain what the rules write. -/
theorem reading_writes :
    (∀ g ∈ readingGrammars, Writes (sigmaUtf8 g.script) g.rules) ∧
    (∀ l ∈ Data.abjadLangs, Writes Abjad.sigma l.readingNorm) := by
  constructor
  · have h : readingGrammars.all (fun g => g.rules.all fun p => p.2.all fun c =>
        memNat (scriptChars g.script) c) = true := by decide +kernel
    intro g hg p hp c hc
    exact Or.inl (memNat_iff.1 (List.all_eq_true.1 (List.all_eq_true.1
      (List.all_eq_true.1 h g hg) p hp) c hc))
  · intro l hl p hp c hc
    refine Or.inr (Or.inr (Or.inr (Or.inl ⟨l, hl, Or.inl ?_⟩)))
    exact List.mem_flatMap.2 ⟨p, hp, List.mem_append.2 (Or.inr hc)⟩

/-- C75. Reading normalization relates every text over the alphabet to exactly one text over the
alphabet: the four Brahmic grammars and the abjad languages. -/
theorem C75_reading_function :
    (∀ g ∈ readingGrammars, ∀ σ, Writes σ g.rules → ∃ R, g.fst σ = some R ∧ FunctionOn σ R) ∧
    (∀ l ∈ Data.abjadLangs, ∀ σ, Writes σ l.readingNorm →
      ∃ R, Abjad.readingNormFst l σ = some R ∧ FunctionOn σ R) := by
  constructor
  · intro g hg σ hσ
    obtain ⟨R, hR, gR, m⟩ := reading_graph hg hσ
    exact ⟨R, hR, fun s hs => ⟨_, (gR _ _).2 ⟨hs, rfl⟩, m s hs, fun t h => ((gR _ _).1 h).2⟩⟩
  · intro l hl σ hσ
    obtain ⟨R, hR, gR, m⟩ := abjad_graph hl hσ
    exact ⟨R, hR, fun s hs => ⟨_, (gR _ _).2 ⟨hs, rfl⟩, m s hs, fun t h => ((gR _ _).1 h).2⟩⟩

/-- C75: text in which no left-hand side occurs is returned unchanged. -/
theorem C75_reading_unchanged :
    (∀ g ∈ readingGrammars, ∀ σ R, Writes σ g.rules → g.fst σ = some R → ∀ s, Over σ s →
      (∀ p ∈ g.rules, ¬ p.1 <:+: s) → ∀ t, R s t ↔ t = s) ∧
    (∀ l ∈ Data.abjadLangs, ∀ σ R, Writes σ l.readingNorm → Abjad.readingNormFst l σ = some R →
      ∀ s, Over σ s → (∀ p ∈ l.readingNorm, ¬ p.1 <:+: s) → ∀ t, R s t ↔ t = s) := by
  constructor
  · intro g hg σ R hσ hR s hs hno t
    obtain ⟨_, hR', gR, _⟩ := reading_graph hg hσ
    rw [hR] at hR'; cases hR'
    rw [gR, show applyRules g.rules s = s from
      scanAll_fixed fun st hst p hp => hno p (stages_mem hst hp)]
    exact ⟨fun h => h.2, fun h => ⟨hs, h⟩⟩
  · intro l hl σ R hσ hR s hs hno t
    obtain ⟨_, hR', gR, _⟩ := abjad_graph hl hσ
    rw [hR] at hR'; cases hR'
    rw [gR, show applyRules l.readingNorm s = s from
      scanAll_fixed fun st hst p hp => hno p (stages_mem hst hp)]
    exact ⟨fun h => h.2, fun h => ⟨hs, h⟩⟩

/-- Malayalam text without VOWEL SIGN U, VOWEL SIGN U, VIRAMA; any text for the other grammars. -/
def NoDoubleU (g : ReadingGrammar) (s : Str) : Prop :=
  g.name = "Mlym" → ¬ [0xD41, 0xD41, 0xD4D] <:+: s

private theorem reading_noLhs {g : ReadingGrammar} (hg : g ∈ readingGrammars) {s : Str}
    (hm : NoDoubleU g s) : ∀ p ∈ g.rules, ¬ p.1 <:+: applyRules g.rules s := by
  simp only [readingGrammars, List.mem_cons, List.not_mem_nil, or_false] at hg
  rcases hg with rfl | rfl | rfl | rfl
  · exact cleanRules_noLhs readingHi_clean s
  · exact cleanRules_noLhs readingBeng_clean s
  · exact cleanRules_noLhs readingLepc_clean s
  · exact readingMlym_noLhs (hm rfl)

/-- C76, Brahmic grammars: reading-normalized text contains no left-hand side of the rules and is
not changed by a second application.
Missing for the full claim: Malayalam text with VOWEL SIGN U, VOWEL SIGN U, VIRAMA, see
`C76_malayalam`. -/
theorem C76_reading_normal_partial {g : ReadingGrammar} (hg : g ∈ readingGrammars)
    {σ : Nat → Prop} (hσ : Writes σ g.rules) {R : Rel} (hR : g.fst σ = some R) {s t : Str}
    (h : R s t) (hm : NoDoubleU g s) :
    (∀ p ∈ g.rules, ¬ p.1 <:+: t) ∧ ∀ u, R t u ↔ u = t := by
  obtain ⟨_, hR', gR, m⟩ := reading_graph hg hσ
  rw [hR] at hR'; cases hR'
  obtain ⟨hs, rfl⟩ := (gR _ _).1 h
  have hno := reading_noLhs hg hm
  exact ⟨hno, C75_reading_unchanged.1 g hg σ R hσ hR _ (m s hs) hno⟩

/-- C76, abjad languages. -/
theorem C76_reading_normal_abjad {l : AbjadData} (hl : l ∈ Data.abjadLangs)
    {σ : Nat → Prop} (hσ : Writes σ l.readingNorm) {R : Rel}
    (hR : Abjad.readingNormFst l σ = some R) {s t : Str} (h : R s t) :
    (∀ p ∈ l.readingNorm, ¬ p.1 <:+: t) ∧ ∀ u, R t u ↔ u = t := by
  obtain ⟨_, hR', gR, m⟩ := abjad_graph hl hσ
  rw [hR] at hR'; cases hR'
  obtain ⟨hs, rfl⟩ := (gR _ _).1 h
  have hno := cleanRules_noLhs (abjad_clean hl) s
  exact ⟨hno, C75_reading_unchanged.2 l hl σ R hσ hR _ (m s hs) hno⟩

/-- C76 fails for Malayalam: of two vowel signs U in front of a virama one application removes only
one. -/
theorem C76_malayalam {σ : Nat → Prop} (hσ : Writes σ readingMlym.rules) {R : Rel}
    (hR : readingMlym.fst σ = some R) (hs : Over σ [0xD15, 0xD41, 0xD41, 0xD4D]) :
    R [0xD15, 0xD41, 0xD41, 0xD4D] [0xD15, 0xD41, 0xD4D] ∧
    R [0xD15, 0xD41, 0xD4D] [0xD15, 0xD4D] ∧ ¬ R [0xD15, 0xD41, 0xD4D] [0xD15, 0xD41, 0xD4D] := by
  obtain ⟨_, hR', gR, m⟩ := reading_graph (g := readingMlym) (by simp [readingGrammars]) hσ
  rw [hR] at hR'; cases hR'
  have hs' : Over σ [0xD15, 0xD41, 0xD4D] := fun c hc => hs c (by simp at hc ⊢; omega)
  refine ⟨(gR _ _).2 ⟨hs, by decide +kernel⟩, (gR _ _).2 ⟨hs', by decide +kernel⟩, fun h => ?_⟩
  exact absurd ((gR _ _).1 h).2 (by decide +kernel)

/-- C77, Bengali and Lepcha: reading normalization of a well-formed text is well formed.
Missing for the full claim: Hindi and Malayalam, see `C77_hindi` and `C77_malayalam`. -/
theorem C77_reading_wellformed_partial {g : ReadingGrammar} (hg : g ∈ [readingBeng, readingLepc])
    {σ : Nat → Prop} (hσ : Writes σ g.rules) {R : Rel} (hR : g.fst σ = some R) {s t : Str}
    (h : R s t) (hs : wellFormed g.script s) : wellFormed g.script t := by
  have hg' : g ∈ readingGrammars := by
    simp only [readingGrammars, List.mem_cons, List.not_mem_nil, or_false] at hg ⊢
    rcases hg with h | h <;> simp [h]
  obtain ⟨_, hR', gR, _⟩ := reading_graph hg' hσ
  rw [hR] at hR'; cases hR'
  rw [((gR _ _).1 h).2]
  simp only [List.mem_cons, List.not_mem_nil, or_false] at hg
  rcases hg with rfl | rfl
  · have he := entriesNonempty_of (d := Data.beng) (by simp [Data.scripts])
    change wellFormed Data.beng s at hs
    change wellFormed Data.beng _
    rw [wellFormed_iff_acc he] at hs ⊢
    refine applyRules_keeps (W := Acc (wfGram Data.beng [] []) 0)
      (cleanRules_nonempty readingBeng_clean) ?_ hs
    exact fun p hp => keepsWf_acc he lhsNonempty_nil lhsNonempty_nil keepsBeng p
      (List.mem_append.2 (Or.inr hp))
  · exact applyRules_wellFormed (entriesNonempty_of (d := Data.lepc) (by simp [Data.scripts]))
      (cleanRules_nonempty readingLepc_clean) keepsLepc hs

/-- C77 fails for Hindi: the well-formed KA VIRAMA NGA VIRAMA KA becomes KA VIRAMA ANUSVARA KA. -/
theorem C77_hindi {σ : Nat → Prop} (hσ : Writes σ readingHi.rules) {R : Rel}
    (hR : readingHi.fst σ = some R) {t : Str}
    (h : R [0x915, 0x94D, 0x919, 0x94D, 0x915] t) :
    wellFormed Data.deva [0x915, 0x94D, 0x919, 0x94D, 0x915] ∧ ¬ wellFormed Data.deva t := by
  obtain ⟨_, hR', gR, _⟩ := reading_graph (g := readingHi) (by simp [readingGrammars]) hσ
  rw [hR] at hR'; cases hR'
  rw [((gR _ _).1 h).2, ← C16_recogniser, ← C16_recogniser]
  decide +kernel

/-- C77 fails for Malayalam: the accepted exception VOWEL SIGN U, VIRAMA becomes a virama at the
beginning of the text. -/
theorem C77_malayalam {σ : Nat → Prop} (hσ : Writes σ readingMlym.rules) {R : Rel}
    (hR : readingMlym.fst σ = some R) {t : Str} (h : R [0xD41, 0xD4D] t) :
    wellFormed Data.mlym [0xD41, 0xD4D] ∧ ¬ wellFormed Data.mlym t := by
  obtain ⟨_, hR', gR, _⟩ := reading_graph (g := readingMlym) (by simp [readingGrammars]) hσ
  rw [hR] at hR'; cases hR'
  rw [((gR _ _).1 h).2, ← C16_recogniser, ← C16_recogniser]
  decide +kernel

/-- Hindi `हिन्दी` is read as `हिंदी`. -/
example : ∃ R, readingHi.fst (sigmaUtf8 Data.deva) = some R ∧
    R [0x939, 0x93F, 0x928, 0x94D, 0x926, 0x940] [0x939, 0x93F, 0x902, 0x926, 0x940] := by
  obtain ⟨R, hR, gR, _⟩ := reading_graph (g := readingHi) (by simp [readingGrammars])
    (reading_writes.1 readingHi (by simp [readingGrammars]))
  refine ⟨R, hR, (gR _ _).2 ⟨?_, by decide +kernel⟩⟩
  intro c hc
  refine Or.inl (memNat_iff.1 ?_)
  revert c
  decide +kernel

/-- A Bengali text that reading normalization changes and that is well formed. -/
example : wellFormed Data.beng [0x99E, 0x981, 0x9AD, 0x9CE] ∧
    applyRules readingBeng.rules [0x99E, 0x981, 0x9AD, 0x9CE] ≠ [0x99E, 0x981, 0x9AD, 0x9CE] := by
  rw [← C16_recogniser]; decide +kernel

end Nisaba.Props
