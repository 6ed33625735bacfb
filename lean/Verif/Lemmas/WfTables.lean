import Verif.Lemmas.WfTablesA
import Verif.Lemmas.WfTablesB
import Verif.Lemmas.WfTablesC
import Verif.Lemmas.NfcTables
import Verif.Model.Reading
/-!
# Normalization of the scripts keeps well-formed text
-/
namespace Nisaba

set_option maxRecDepth 100000

theorem keepsCore_of {d : BrahmicData} (hd : d ∈ Data.scripts) : keepsCore d = true := by
  simp only [Data.scripts, List.mem_cons, List.not_mem_nil, or_false] at hd
  rcases hd with rfl | rfl | rfl | rfl | rfl | rfl | rfl | rfl | rfl | rfl | rfl | rfl | rfl | rfl |
    rfl | rfl | rfl | rfl | rfl | rfl
  · exact keepsCore_beng
  · exact keepsCore_bugi
  · exact keepsCore_deva
  · exact keepsCore_gujr
  · exact keepsCore_guru
  · exact keepsCore_knda
  · exact keepsCore_lepc
  · exact keepsCore_limb
  · exact keepsCore_mlym
  · exact keepsCore_mtei
  · exact keepsCore_newa
  · exact keepsCore_orya
  · exact keepsCore_sinh
  · exact keepsCore_sylo
  · exact keepsCore_takr
  · exact keepsCore_taml
  · exact keepsCore_telu
  · exact keepsCore_tglg
  · exact keepsCore_thaa
  · exact keepsCore_tirh

theorem entriesNonempty_of {d : BrahmicData} (hd : d ∈ Data.scripts) : entriesNonempty d = true := by
  have h : Data.scripts.all entriesNonempty = true := by decide +kernel
  exact List.all_eq_true.1 h d hd

/-- The check of NFC, for all scripts but Malayalam. -/
theorem keepsNfc_of {d : BrahmicData} (hd : d ∈ Data.scripts) (hm : d.name ≠ "Mlym") :
    keepsWf d [] [] d.nfc = true ∧ keepsWf d [] d.preserve d.nfc = true := by
  have h : ((Data.scripts.filter fun d => decide (d.name ≠ "Mlym")).all fun d =>
      keepsWf d [] [] d.nfc && keepsWf d [] d.preserve d.nfc) = true := by decide +kernel
  have := List.all_eq_true.1 h d (List.mem_filter.2 ⟨hd, by simpa using hm⟩)
  simpa only [Bool.and_eq_true] using this

/-- NFC. -/
theorem nfc_wellFormed {d : BrahmicData} (hd : d ∈ Data.scripts) (hm : d.name ≠ "Mlym") {s : Str}
    (hs : wellFormed d s) : wellFormed d (applyRules d.nfc s) :=
  applyRules_wellFormed (entriesNonempty_of hd) (cleanRules_nonempty (nfc_clean hd))
    (keepsNfc_of hd hm).1 hs

theorem nfc_loose {d : BrahmicData} (hd : d ∈ Data.scripts) (hm : d.name ≠ "Mlym") {s : Str}
    (hs : wellFormed d s) : Acc (looseGram d) 0 (applyRules d.nfc s) := by
  have he := entriesNonempty_of hd
  refine applyRules_keeps (W := Acc (looseGram d) 0) (cleanRules_nonempty (nfc_clean hd))
    (keepsWf_acc he lhsNonempty_nil (preserve_nonempty he) (keepsNfc_of hd hm).2) ?_
  exact acc_of_wellFormed he lhsNonempty_nil (preserve_nonempty he) hs

/-- The passes behind NFC. -/
theorem core_wellFormed_of {d : BrahmicData} (hd : d ∈ Data.scripts) {s : Str}
    (hs : Acc (looseGram d) 0 s)
    (hg : ∀ c ∈ coreVisual d (collapse (joiners ++ d.marks) s), ¬ generated c) :
    wellFormed d (coreVisual d (collapse (joiners ++ d.marks) s)) :=
  core_wellFormed (entriesNonempty_of hd) (visualOk_of hd)
    (noConflict_nonempty (visualOk_rewrite (visualOk_of hd))) (keepsCore_of hd) hs hg

/-! ## Malayalam -/

/-- CHILLU N, VOWEL SIGN E or EE, VOWEL SIGN AA. -/
def chilluSigns : List Str := [[0xD7B, 0xD46, 0xD3E], [0xD7B, 0xD47, 0xD3E]]

theorem infix_around {f x y : Str} {c : Nat} (hc : c ∉ f) (h : f <:+: x ++ (c :: y)) :
    f <:+: x ∨ f <:+: y := by
  obtain ⟨a, b, h⟩ := h
  rw [List.append_assoc] at h
  rcases List.append_eq_append_iff.1 h with ⟨q, h1, h2⟩ | ⟨q, h1, h2⟩
  · -- `a` ends inside `x`
    rcases List.append_eq_append_iff.1 h2 with ⟨r, h3, h4⟩ | ⟨r, h3, h4⟩
    · left; exact ⟨a, r, by rw [h1, h3]; simp⟩
    · cases r with
      | nil => left; exact ⟨a, [], by rw [h1]; simp at h3; rw [h3]; simp⟩
      | cons e r =>
        simp only [List.cons_append, List.cons.injEq] at h4
        exact absurd (by rw [h3, h4.1]; simp) hc
  · cases q with
    | nil =>
      cases f with
      | nil => left; exact ⟨[], x, by simp⟩
      | cons e f =>
        simp only [List.nil_append, List.cons_append, List.cons.injEq] at h2
        exact absurd (by rw [h2.1]; simp) hc
    | cons e q =>
      simp only [List.cons_append, List.cons.injEq] at h2
      right; exact ⟨q, b, by rw [h2.2]; simp⟩

private theorem mlym_check : rulesOk (looseGram Data.mlym) (places (looseGram Data.mlym) 3 wfNodes)
      (fun w => strEq w [0xD7B]) Data.mlym.nfc = true ∧
    rulesOk (looseGram Data.mlym) (places (looseGram Data.mlym) 3 wfNodes) (fun _ => false)
      [([0xD46, 0xD57], [0xD4C])] = true ∧
    rulesOk (wfGram Data.mlym [] []) (places (wfGram Data.mlym [] []) 3 wfNodes)
      (fun w => strEq w [0xD7B]) Data.mlym.nfc = true ∧
    rulesOk (wfGram Data.mlym [] []) (places (wfGram Data.mlym [] []) 3 wfNodes) (fun _ => false)
      [([0xD46, 0xD57], [0xD4C])] = true := by decide +kernel

private theorem mlym_keeps {final : List Rule} (hf : LhsNonempty final)
    (h1 : rulesOk (wfGram Data.mlym [] final) (places (wfGram Data.mlym [] final) 3 wfNodes)
      (fun w => strEq w [0xD7B]) Data.mlym.nfc = true)
    (h2 : rulesOk (wfGram Data.mlym [] final) (places (wfGram Data.mlym [] final) 3 wfNodes)
      (fun _ => false) [([0xD46, 0xD57], [0xD4C])] = true) {s : Str}
    (hs : Acc (wfGram Data.mlym [] final) 0 s) (hno : ∀ f ∈ chilluSigns, ¬ f <:+: s) :
    Acc (wfGram Data.mlym [] final) 0 (applyRules Data.mlym.nfc s) := by
  have he : entriesNonempty Data.mlym = true := entriesNonempty_of (by simp [Data.scripts])
  have hne := cleanRules_nonempty (nfc_clean (d := Data.mlym) (by simp [Data.scripts]))
  refine (applyRules_keeps (W := fun s => Acc (wfGram Data.mlym [] final) 0 s ∧
    ∀ f ∈ chilluSigns, ¬ f <:+: s) hne ?_ ⟨hs, hno⟩).1
  rintro p hp x y ⟨hacc, hno⟩
  constructor
  · by_cases h3 : p = ([0xD46, 0xD57], [0xD4C])
    · exact rulesOk_keeps (wfGram_closed he lhsNonempty_nil hf) (wfGram_bad _ [] final)
        (wfGram_nodes _ [] final) h2 (by rw [h3]; simp) (fun _ _ => rfl) hacc
    · refine rulesOk_keeps (wfGram_closed he lhsNonempty_nil hf) (wfGram_bad _ [] final)
        (wfGram_nodes _ [] final) h1 hp ?_ hacc
      intro w hw
      rw [Bool.eq_false_iff]
      intro hw'
      rw [strEq_iff.1 hw'] at hw
      obtain ⟨x', rfl⟩ := hw
      have hp' : p = ([0xD46, 0xD3E], [0xD4A]) ∨ p = ([0xD47, 0xD3E], [0xD4B]) := by
        simp only [Data.mlym, List.mem_cons, List.not_mem_nil, or_false] at hp
        rcases hp with rfl | rfl | rfl
        · exact Or.inl rfl
        · exact Or.inr rfl
        · exact absurd rfl h3
      rcases hp' with rfl | rfl
      · exact hno [0xD7B, 0xD46, 0xD3E] (by simp [chilluSigns]) ⟨x', y, by simp⟩
      · exact hno [0xD7B, 0xD47, 0xD3E] (by simp [chilluSigns]) ⟨x', y, by simp⟩
  · intro f hf' hin
    obtain ⟨c, hc, hcf⟩ : ∃ c, p.2 = [c] ∧ c ∉ f := by
      simp only [Data.mlym, List.mem_cons, List.not_mem_nil, or_false] at hp
      simp only [chilluSigns, List.mem_cons, List.not_mem_nil, or_false] at hf'
      rcases hp with rfl | rfl | rfl <;> rcases hf' with rfl | rfl <;>
        exact ⟨_, rfl, by decide⟩
    rw [hc] at hin
    rcases infix_around hcf hin with h | h
    · exact hno f hf' (h.trans (List.prefix_append x _).isInfix)
    · exact hno f hf' (h.trans ((List.suffix_append p.1 y).isInfix.trans
        (List.suffix_append x _).isInfix))

theorem mlym_nfc_wellFormed {s : Str} (hs : wellFormed Data.mlym s)
    (hno : ∀ f ∈ chilluSigns, ¬ f <:+: s) : wellFormed Data.mlym (applyRules Data.mlym.nfc s) := by
  have he : entriesNonempty Data.mlym = true := entriesNonempty_of (by simp [Data.scripts])
  rw [wellFormed_iff_acc he] at hs ⊢
  exact mlym_keeps lhsNonempty_nil mlym_check.2.2.1 mlym_check.2.2.2 hs hno

theorem mlym_nfc_loose {s : Str} (hs : wellFormed Data.mlym s)
    (hno : ∀ f ∈ chilluSigns, ¬ f <:+: s) :
    Acc (looseGram Data.mlym) 0 (applyRules Data.mlym.nfc s) := by
  have he : entriesNonempty Data.mlym = true := entriesNonempty_of (by simp [Data.scripts])
  exact mlym_keeps (preserve_nonempty he) mlym_check.1 mlym_check.2.1
    (acc_of_wellFormed he lhsNonempty_nil (preserve_nonempty he) hs) hno

/-! ## Language-specific visual normalization and reading normalization -/

theorem keepsBeng : keepsWf Data.beng [] []
      (beforeRules Data.bengAsBeforeConsonant Data.beng.consonant ++
       beforeRules Data.bengBnBeforeConsonant Data.beng.consonant ++
       Data.bengAsAfterConsonant ++ Data.bengBnAfterConsonant ++ Data.beng.readingNorm) = true := by
  decide +kernel

theorem keepsLepc : keepsWf Data.lepc [] [] Data.lepc.readingNorm = true := by decide +kernel

theorem readingHi_clean : cleanRules Data.devaHiReadingNorm = true := by decide +kernel

theorem readingBeng_clean : cleanRules Data.beng.readingNorm = true := by decide +kernel

theorem readingLepc_clean : cleanRules Data.lepc.readingNorm = true := by decide +kernel

theorem readingAbjad_clean : (Data.abjadLangs.all fun l => cleanRules l.readingNorm) = true := by
  decide +kernel

theorem readingMlym_ok : noConflict Data.mlym.readingNorm = true := by decide +kernel

/-- A pass that marks VOWEL SIGN U, VOWEL SIGN U, VIRAMA, in front of the passes of the reading
normalization of Malayalam. -/
def mlymMarked : List (List Rule) :=
  [([0xD41, 0xD41, 0xD4D], [0x110000])] :: stages Data.mlym.readingNorm

private def mlymAlpha : List Nat := dedupNat (lhsChars mlymMarked)

private theorem mlymMarked_closed : closed mlymMarked (Data.mlym.readingNorm.map (·.1)) mlymAlpha
    (explore mlymMarked (Data.mlym.readingNorm.map (·.1)) mlymAlpha 5000 [([], [])] [([], [])])
      = true ∧
    ((Data.mlym.readingNorm.map (·.1)).all fun l => l.all fun c => memNat mlymAlpha c) = true := by
  decide +kernel

/-- Reading normalization of Malayalam leaves none of its left-hand sides, if there is no
VOWEL SIGN U, VOWEL SIGN U, VIRAMA. -/
theorem readingMlym_noLhs {s : Str} (hs : ¬ [0xD41, 0xD41, 0xD4D] <:+: s) :
    ∀ p ∈ Data.mlym.readingNorm, ¬ p.1 <:+: applyRules Data.mlym.readingNorm s := by
  obtain ⟨sets, hsets⟩ := noConflict_ok readingMlym_ok
  have hne := noConflict_nonempty readingMlym_ok
  have G := goodSplit_of_ok hsets
  have hst : stages Data.mlym.readingNorm = sets := by simp [stages, hsets]
  have e : applyRules Data.mlym.readingNorm s = scanAll mlymMarked s := by
    unfold mlymMarked applyRules
    rw [scanAll, scan_fixed]
    intro p hp
    simp only [List.mem_singleton] at hp
    subst hp; exact hs
  rw [e]
  intro p hp
  refine noBad_of_closed (sts := mlymMarked) ?_ ?_ ?_ ?_ ?_ mlymMarked_closed.1 s p.1
    (List.mem_map_of_mem hp)
  · intro st hst'
    rcases List.mem_cons.1 hst' with rfl | h
    · intro q hq
      simp only [List.mem_singleton] at hq
      subst hq; simp
    · rw [hst] at h
      intro q hq; exact hne q (mem_sets_rules hsets h hq)
  · intro st hst'
    rcases List.mem_cons.1 hst' with rfl | h
    · exact prefixDet_single _
    · rw [hst] at h; exact G.prefixDet st h
  · intro l hl
    obtain ⟨q, hq, rfl⟩ := List.mem_map.1 hl
    exact hne q hq
  · intro l hl c hc
    exact memNat_iff.1 (List.all_eq_true.1 (List.all_eq_true.1 mlymMarked_closed.2 l hl) c hc)
  · intro c hc; exact mem_dedupNat.2 hc

end Nisaba
