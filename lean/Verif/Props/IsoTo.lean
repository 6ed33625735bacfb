import Verif.Props.Iso
/-!
# Conversion from ISO 15919 (C92)
-/
namespace Nisaba.Props
open WRel Iso

/-- C92: an ISO text, whatever it is, that can be converted to a script has exactly one
lowest-weight conversion, and every path with another result costs more. -/
theorem C92_to_unambiguous {d : BrahmicData} (hd : d ∈ Data.scripts) {σ : Nat → Prop}
    (hσ : Contains σ d) {R : Rel} (hR : nfcFst d σ = some R) {y : Str}
    (h : ∃ z w, toScript d R y z w) :
    ∃ z w, toScript d R y z w ∧ (∀ z' w', toScript d R y z' w' → z' ≠ z → w < w') ∧
      ∀ z', Best (toScript d R) y z' ↔ z' = z := by
  obtain ⟨F⟩ := isoFacts hd
  obtain ⟨z₁, w₁, h₁⟩ := h
  obtain ⟨m₁, hm₁, _⟩ := to_iff.1 h₁
  obtain ⟨m, w, hm, hmin⟩ := iso_to_best F.ok hm₁
  have hz : R m (applyRules d.nfc m) :=
    (nfc_iff hd hσ hR).2 ⟨fun c hc => hσ c (iso_over hm c hc), rfl⟩
  have key : ∀ z' w', toScript d R y z' w' → w < w' ∨ (w = w' ∧ z' = applyRules d.nfc m) := by
    intro z' w' h'
    obtain ⟨m', hm', hz'⟩ := to_iff.1 h'
    rcases hmin m' w' hm' with h | ⟨h, e⟩
    · exact Or.inl h
    · refine Or.inr ⟨h, ?_⟩
      rw [((nfc_iff hd hσ hR).1 hz').2, ← F.same m', e, F.same]
  have hto := to_iff.2 ⟨m, hm, hz⟩
  refine ⟨_, w, hto, fun z' w' h' hne => ?_, fun z' => ⟨?_, ?_⟩⟩
  · rcases key z' w' h' with h | ⟨_, h⟩
    · exact h
    · exact absurd h hne
  · rintro ⟨w', h', hle⟩
    have := hle _ w hto
    rcases key z' w' h' with h | ⟨_, h⟩
    · omega
    · exact h
  · rintro rfl
    refine ⟨w, hto, fun z' w' h' => ?_⟩
    rcases key z' w' h' with h | ⟨h, _⟩ <;> omega

/-- C92: the texts that an ISO text is converted to are in NFC and over the alphabet of the script. -/
theorem C92_to_nfc {d : BrahmicData} (hd : d ∈ Data.scripts) {σ : Nat → Prop}
    (hσ : Contains σ d) {R : Rel} (hR : nfcFst d σ = some R) {y z : Str} {w : Nat}
    (h : toScript d R y z w) : R z z ∧ Over (sigmaUtf8 d) z := by
  obtain ⟨m, hm, hz⟩ := to_iff.1 h
  have e := ((nfc_iff hd hσ hR).1 hz).2
  obtain ⟨R', hR', hall⟩ := C06_nfc_total.1 d hd _ (writes_sigmaUtf8 d)
  obtain ⟨t, ht, hover, _⟩ := hall m (iso_over hm)
  have et : t = z := by
    rw [e, ((nfc_iff hd (fun _ h => h) hR').1 ht).2]
  subst et
  refine ⟨(nfc_iff hd hσ hR).2 ⟨fun c hc => hσ c (hover c hc), ?_⟩, hover⟩
  rw [e]
  exact (cleanRules_idem (nfc_clean hd) m).symm

/-! ## Instances -/

/-- The hypotheses of C92 hold of `kā` and of the NFC grammar over the alphabet of Gujarati. -/
example : ∃ R, nfcFst Data.gujr (sigmaUtf8 Data.gujr) = some R ∧
    toScript Data.gujr R [0x6B, 0x101] [0xA95, 0xABE] 0 := by
  have hd : Data.gujr ∈ Data.scripts := by simp [Data.scripts]
  have hσ : Contains (sigmaUtf8 Data.gujr) Data.gujr := fun _ h => h
  obtain ⟨R, hR, _⟩ := C06_nfc_total.1 _ hd _ hσ.writes
  refine ⟨R, hR, to_iff.2 ⟨_, gujr_ka, (nfc_iff hd hσ hR).2 ⟨?_, by decide +kernel⟩⟩⟩
  intro c hc
  simp at hc
  rcases hc with rfl | rfl <;> left <;> exact memNat_iff.1 (by decide +kernel)

/-- Nor does C92 need a text that `FROM_<script>` writes as its best one: `ka-ā` is converted too, and
`kā` is what the result is romanized to. -/
example : ∃ R, nfcFst Data.gujr (sigmaUtf8 Data.gujr) = some R ∧
    ∃ w, toScript Data.gujr R [0x6B, 0x61, 0x2D, 0x101] [0xA95, 0xABE] w := by
  have hd : Data.gujr ∈ Data.scripts := by simp [Data.scripts]
  have hσ : Contains (sigmaUtf8 Data.gujr) Data.gujr := fun _ h => h
  obtain ⟨R, hR, _⟩ := C06_nfc_total.1 _ hd _ hσ.writes
  refine ⟨R, hR, 2, to_iff.2 ⟨[0xA95, 0xABE], ?_, (nfc_iff hd hσ hR).2 ⟨?_, by decide +kernel⟩⟩⟩
  · exact C22_concat Data.gujr (x := [0xA95]) (y := [0x6B, 0x61])
      (Star.one (isoUnits_iff.2 (IsoUnit.inherent (d := Data.gujr)
        (IsoCons.core (r := ([0xA95], [0x6B])) (row _ (by decide +kernel)))
        (i := ([0x61], [0x61])) (row _ (by decide +kernel)))))
      (Star.one (isoUnits_iff.2 (IsoUnit.dash (d := Data.gujr) (r := ([0xABE], [0x101]))
        (row _ (by decide +kernel)))))
  · intro c hc
    simp at hc
    rcases hc with rfl | rfl <;> left <;> exact memNat_iff.1 (by decide +kernel)

end Nisaba.Props
