import Verif.Lemmas.NfcBrahmic
/-!
# Brahmic NFC (C06 – C09)

`nfcFst d σ` and `brahmicNfcFst σ` are the relations compiled from the tables in /repo; they are
defined with the declarative rewrite `CDRewrite`, not with the functions used in the proofs.
-/
namespace Nisaba.Props

/-- `R` relates every string over `σ` to exactly one string, which is again over `σ`. -/
def FunctionOn (σ : Nat → Prop) (R : Rel) : Prop :=
  ∀ s, Over σ s → ∃ t, R s t ∧ Over σ t ∧ ∀ t', R s t' → t' = t

/-- `σ` contains the characters the table writes. -/
def Writes (σ : Nat → Prop) (rules : List Rule) : Prop := ∀ p ∈ rules, Over σ p.2

/-- The UTF-8-mode alphabet of each script contains what its NFC table writes. -/
theorem writes_sigmaUtf8 (d : BrahmicData) : Writes (sigmaUtf8 d) d.nfc := by
  intro p hp c hc
  refine Or.inl ?_
  have : c ∈ bothChars d.nfc := by
    simp only [bothChars, List.mem_flatMap, List.mem_append]; exact ⟨p, hp, Or.inr hc⟩
  simp [scriptChars, this]

theorem writes_brahmicSigma : Writes brahmicSigma brahmicNfcRules := by
  intro p hp c hc
  obtain ⟨d, hd, hp⟩ : ∃ d ∈ Data.scripts, p ∈ d.nfc := by
    simpa [brahmicNfcRules, List.mem_flatMap] using hp
  exact ⟨d, hd, writes_sigmaUtf8 d p hp c hc⟩

/-- Byte-mode alphabet: everything. -/
theorem writes_true (rules : List Rule) : Writes (fun _ => True) rules := fun _ _ _ _ => trivial

private theorem function_of_ok {rules : List Rule} {σ : Nat → Prop}
    (hok : ∃ sets, partitionUnordered rules = .ok sets) (hne : LhsNonempty rules)
    (hσ : Writes σ rules) : ∃ R, fstFromRules rules σ = some R ∧ FunctionOn σ R := by
  obtain ⟨sets, hs⟩ := hok
  have h : fstFromRules rules σ = some (rewriteAndCompose sets σ) := by simp [fstFromRules, hs]
  refine ⟨_, h, fun s hs' => ⟨applyRules rules s, (fstFromRules_iff hne hσ h).2 ⟨hs', rfl⟩, ?_,
    fun t' ht' => ((fstFromRules_iff hne hσ h).1 ht').2⟩⟩
  unfold applyRules stages
  rw [hs]
  exact over_scanAll (fun st hst p hp => hσ p (mem_sets_rules hs hst hp)) hs'

/-- C06. NFC is a total function on strings over the alphabet, per script and pan-Brahmic. -/
theorem C06_nfc_total :
    (∀ d ∈ Data.scripts, ∀ σ, Writes σ d.nfc → ∃ R, nfcFst d σ = some R ∧ FunctionOn σ R) ∧
    (∀ σ, Writes σ brahmicNfcRules → ∃ R, brahmicNfcFst σ = some R ∧ FunctionOn σ R) := by
  constructor
  · intro d hd σ hσ
    exact function_of_ok (cleanRules_ok (nfc_clean hd)) (cleanRules_nonempty (nfc_clean hd)) hσ
  · intro σ hσ
    exact function_of_ok ⟨_, brahmic_stages⟩ brahmic_nonempty hσ

/-- C06 for the alphabets the code uses. -/
theorem C06_nfc_total_sigma :
    (∀ d ∈ Data.scripts, ∃ R, nfcFst d (sigmaUtf8 d) = some R ∧ FunctionOn (sigmaUtf8 d) R) ∧
    (∃ R, brahmicNfcFst brahmicSigma = some R ∧ FunctionOn brahmicSigma R) :=
  ⟨fun d hd => C06_nfc_total.1 d hd _ (writes_sigmaUtf8 d),
    C06_nfc_total.2 _ writes_brahmicSigma⟩

/-- C07. Applying NFC to an NFC text gives that text and nothing else. -/
theorem C07_nfc_idempotent {σ : Nat → Prop} :
    (∀ d ∈ Data.scripts, Writes σ d.nfc → ∀ R, nfcFst d σ = some R →
      ∀ s t, R s t → ∀ u, R t u ↔ u = t) ∧
    (Writes σ brahmicNfcRules → ∀ R, brahmicNfcFst σ = some R →
      ∀ s t, R s t → ∀ u, R t u ↔ u = t) := by
  constructor
  · intro d hd hσ R hR s t hst u
    have hne := cleanRules_nonempty (nfc_clean hd)
    obtain ⟨_, hR', hf⟩ := C06_nfc_total.1 d hd σ hσ
    rw [hR] at hR'; cases hR'
    obtain ⟨hs, rfl⟩ := (fstFromRules_iff hne hσ hR).1 hst
    obtain ⟨t', h1, h2, _⟩ := hf s hs
    have e := ((fstFromRules_iff hne hσ hR).1 h1).2
    rw [fstFromRules_iff hne hσ hR, cleanRules_idem (nfc_clean hd)]
    exact ⟨fun h => h.2, fun h => ⟨by rw [← e]; exact h2, h⟩⟩
  · intro hσ R hR s t hst u
    have hne := brahmic_nonempty
    obtain ⟨_, hR', hf⟩ := C06_nfc_total.2 σ hσ
    rw [hR] at hR'; cases hR'
    obtain ⟨hs, rfl⟩ := (fstFromRules_iff hne hσ hR).1 hst
    obtain ⟨t', h1, h2, _⟩ := hf s hs
    have e := ((fstFromRules_iff hne hσ hR).1 h1).2
    have hidem : applyRules brahmicNfcRules (applyRules brahmicNfcRules s) =
        applyRules brahmicNfcRules s :=
      scanAll_fixed fun st hst p hp => brahmic_noLhs s p (brahmic_stage_rules hst hp)
    rw [fstFromRules_iff hne hσ hR, hidem]
    exact ⟨fun h => h.2, fun h => ⟨by rw [← e]; exact h2, h⟩⟩

/-- C08. The output of NFC contains no left-hand side of the table; a text containing none is
returned unchanged. -/
theorem C08_nfc_complete {σ : Nat → Prop} :
    (∀ d ∈ Data.scripts, Writes σ d.nfc → ∀ R, nfcFst d σ = some R →
      (∀ s t, R s t → ∀ p ∈ d.nfc, ¬ p.1 <:+: t) ∧
      (∀ s, Over σ s → (∀ p ∈ d.nfc, ¬ p.1 <:+: s) → ∀ t, R s t ↔ t = s)) ∧
    (Writes σ brahmicNfcRules → ∀ R, brahmicNfcFst σ = some R →
      (∀ s t, R s t → ∀ p ∈ brahmicNfcRules, ¬ p.1 <:+: t) ∧
      (∀ s, Over σ s → (∀ p ∈ brahmicNfcRules, ¬ p.1 <:+: s) → ∀ t, R s t ↔ t = s)) := by
  refine ⟨fun d hd hσ R hR => ⟨?_, ?_⟩, fun hσ R hR => ⟨?_, ?_⟩⟩
  · intro s t h p hp
    rw [((fstFromRules_iff (cleanRules_nonempty (nfc_clean hd)) hσ hR).1 h).2]
    exact cleanRules_noLhs (nfc_clean hd) s p hp
  · intro s hs hno t
    rw [fstFromRules_iff (cleanRules_nonempty (nfc_clean hd)) hσ hR,
      show applyRules d.nfc s = s from scanAll_fixed fun st hst p hp => hno p (stages_mem hst hp)]
    exact ⟨fun h => h.2, fun h => ⟨hs, h⟩⟩
  · intro s t h p hp
    rw [((fstFromRules_iff brahmic_nonempty hσ hR).1 h).2]
    exact brahmic_noLhs s p hp
  · intro s hs hno t
    rw [fstFromRules_iff brahmic_nonempty hσ hR,
      show applyRules brahmicNfcRules s = s from
        scanAll_fixed fun st hst p hp => hno p (stages_mem hst hp)]
    exact ⟨fun h => h.2, fun h => ⟨hs, h⟩⟩

/-- C09. On text over one script's alphabet pan-Brahmic NFC returns what the script's NFC
returns. -/
theorem C09_brahmic_agrees {d : BrahmicData} (hd : d ∈ Data.scripts) {R S : Rel}
    (hR : nfcFst d (sigmaUtf8 d) = some R) (hS : brahmicNfcFst brahmicSigma = some S)
    {s : Str} (hs : Over (sigmaUtf8 d) s) (t : Str) : R s t ↔ S s t := by
  rw [fstFromRules_iff (cleanRules_nonempty (nfc_clean hd)) (writes_sigmaUtf8 d) hR,
    fstFromRules_iff brahmic_nonempty writes_brahmicSigma hS]
  have key : applyRules brahmicNfcRules s = applyRules d.nfc s := by
    have hag := List.all_eq_true.1 brahmic_agrees_script d hd
    refine brahmic_eq_script hag ?_ ?_
    · intro p hp c hc
      rcases writes_sigmaUtf8 d p hp c hc with h | h
      · exact List.mem_append.2 (Or.inl (mem_dedupNat.2 h))
      · exact List.mem_append.2 (Or.inr h)
    · intro c hc
      rcases hs c hc with h | h
      · exact List.mem_append.2 (Or.inl (mem_dedupNat.2 h))
      · exact List.mem_append.2 (Or.inr h)
  rw [key]
  exact ⟨fun h => ⟨fun c hc => ⟨d, hd, hs c hc⟩, h.2⟩, fun h => ⟨hs, h.2⟩⟩

/-! ## Instances -/

/-- Kannada E + vowel sign UU + length mark becomes OO in one step ... -/
example : applyRules Data.knda.nfc [0x0CC6, 0x0CC2, 0x0CD5] = [0x0CCB] := by decide +kernel
/-- ... while E + UU alone, in the second rule set, becomes O. -/
example : applyRules Data.knda.nfc [0x0CC6, 0x0CC2] = [0x0CCA] := by decide +kernel
example : Over (sigmaUtf8 Data.knda) [0x0CC6, 0x0CC2] := by
  intro c hc; simp at hc
  rcases hc with rfl | rfl <;> left <;> exact memNat_iff.1 (by decide +kernel)
/-- Two scripts in one text. -/
example : applyRules brahmicNfcRules [0x0CC6, 0x0CC2, 0x0CC6, 0x0DD9, 0x0DCF] =
    [0x0CCA, 0x0CC6, 0x0DDC] := by decide +kernel

end Nisaba.Props
