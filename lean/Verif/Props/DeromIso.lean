import Verif.Lemmas.DeromIso
import Verif.Props.Iso
import Verif.Props.Derom
/-!
# The two outputs of the deromanizer agree: C109

`toBrahmic` and `toIso` are the two grammars of natural_translit's deromanizer; `fromScript` and
`toScript` are the ISO grammars of `nisaba.scripts.brahmic`, written independently of it.
-/
namespace Nisaba.NT
namespace Derom
open WRel Props Props.Iso

set_option linter.constructorNameAsVariable false

theorem applyRules_fixed {d : BrahmicData} (hd : d ∈ Data.scripts) {s : Str} (h : ∀ p ∈ d.nfc, ¬ p.1 <:+: s) :
    applyRules d.nfc s = s := by
  obtain ⟨sets, hs⟩ := cleanRules_ok (nfc_clean hd)
  have hst : stages d.nfc = sets := by simp [stages, hs]
  refine scanAll_fixed fun st hst' p hp => h p ?_
  rw [hst] at hst'
  exact mem_sets_rules hs hst' hp

/-- The languages and their scripts. -/
def Lg (P : Params) (d : BrahmicData) : Prop := (P = hi ∧ d = Data.deva) ∨ (P = ta ∧ d = Data.taml)

theorem cert_of {P : Params} {d : BrahmicData} (h : Lg P d) {x : Str} (hx : lower x) :
    ∃ C w, Seq.Cert.ok (isoArcs d) C = true ∧ C.best (brhOf P x) = some (w, isoOf P x) := by
  rcases h with ⟨rfl, rfl⟩ | ⟨rfl, rfl⟩
  · obtain ⟨w, hw⟩ := derom_best (.inl rfl) hi_sim hx
    exact ⟨_, w, IsoCert.deva_D, hw⟩
  · obtain ⟨w, hw⟩ := derom_best (.inr rfl) ta_sim hx
    exact ⟨_, w, IsoCert.taml_D, hw⟩

theorem fixed_of {P : Params} {d : BrahmicData} (h : Lg P d) {x : Str} (hx : lower x) :
    d ∈ Data.scripts ∧ ∀ p ∈ d.nfc, ¬ p.1 <:+: brhOf P x := by
  rcases h with ⟨rfl, rfl⟩ | ⟨rfl, rfl⟩
  · exact ⟨by simp [Data.scripts], hi_fixed hx⟩
  · exact ⟨by simp [Data.scripts], ta_fixed hx⟩

/-- C109: the native deromanization of a word is in NFC; the ISO deromanization is its ISO
romanization, and converting that back to the script gives the native deromanization, whichever
lowest-weight paths are taken. -/
theorem C109_agree {P : Params} {d : BrahmicData} (h : (P = hi ∧ d = Data.deva) ∨ (P = ta ∧ d = Data.taml))
    {σ : Nat → Prop} (hσ : Contains σ d) {R : Rel} (hR : nfcFst d σ = some R) {x y z : Str}
    (hy : toBrahmic P .utf8 x y) (hz : toIso P .utf8 x z) :
    R y y ∧ (∀ u, Best (fromScript d R) y u ↔ u = z) ∧ ∀ u, Best (toScript d R) z u ↔ u = y := by
  have hP : P = hi ∨ P = ta := h.imp And.left And.left
  rw [toBrahmic_iff hP] at hy
  rw [toIso_iff hP] at hz
  obtain ⟨hx, hy⟩ := hy
  have hz := hz.2
  obtain ⟨hd, hfix⟩ := fixed_of h hx
  obtain ⟨C, w, hC, hb⟩ := cert_of h hx
  rw [show Mode.utf8.labels (brhOf P x) = brhOf P x from rfl] at hy
  rw [show Mode.utf8.labels (isoOf P x) = isoOf P x from rfl] at hz
  rw [← hy] at hfix hb
  rw [← hz] at hb
  clear hy hz
  obtain ⟨h1, h2⟩ := Seq.best_exact hC hb
  have h1 := (iso_reach hC).2 h1
  have hover : Over σ y := fun c hc => hσ c (iso_over h1 c hc)
  have hyy : R y y := (nfc_iff hd hσ hR).2 ⟨hover, (applyRules_fixed hd hfix).symm⟩
  have key : ∀ u, Best (fromScript d R) y u ↔ u = z := by
    intro u
    constructor
    · rintro ⟨w', h3, h4⟩
      have h5 := h4 z w ((from_iff hd hσ hR hyy).2 h1)
      rcases h2 ((iso_reach hC).1 ((from_iff hd hσ hR hyy).1 h3)) with h6 | ⟨_, h6⟩
      · omega
      · exact h6
    · rintro rfl
      refine ⟨w, (from_iff hd hσ hR hyy).2 h1, fun u' w' h3 => ?_⟩
      rcases h2 ((iso_reach hC).1 ((from_iff hd hσ hR hyy).1 h3)) with h6 | ⟨h6, _⟩ <;> omega
  exact ⟨hyy, key, C20_lossless hd hσ hR hyy ((key z).2 rfl)⟩

/-- A case: Hindi `hindi`. -/
example : ∃ R, nfcFst Data.deva (sigmaUtf8 Data.deva) = some R ∧
    Best (fromScript Data.deva R) a!"हिंदि" a!"hiṁdi" ∧ Best (toScript Data.deva R) a!"hiṁdi" a!"हिंदि" := by
  obtain ⟨R, hR, _⟩ := C06_nfc_total.1 Data.deva (by simp [Data.scripts]) (sigmaUtf8 Data.deva)
    (Contains.writes fun _ h => h)
  have hx : lower a!"hindi" := lower_of (by decide)
  have h := C109_agree (.inl (And.intro rfl rfl)) (fun _ h => h) hR
    ((toBrahmic_iff (.inl rfl) .utf8 _ _).2 (And.intro hx ev1.1.symm))
    ((toIso_iff (.inl rfl) .utf8 _ _).2 (And.intro hx ev1.2.1.symm))
  exact ⟨R, hR, (h.2.1 _).2 rfl, (h.2.2 _).2 rfl⟩

end Derom
end Nisaba.NT
