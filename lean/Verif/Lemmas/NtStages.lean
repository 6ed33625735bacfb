import Verif.Lemmas.NtDfa
/-!
# The rules of the natural_translit grammars keep the language of alignments
-/
namespace Nisaba.NT

/-- Diphthongs allowed. -/
def M1 : Cfg := ⟨true, false, false, false, true⟩
/-- No diphthongs. -/
def M2 : Cfg := ⟨false, false, false, false, true⟩
/-- Diphthongs allowed, doubled `t` apart. -/
def M1t : Cfg := ⟨true, false, true, false, true⟩
/-- Diphthongs allowed, `a_i` tracked. -/
def M1h : Cfg := ⟨true, true, false, false, true⟩
/-- Diphthongs and translits allowed. -/
def M1r : Cfg := ⟨true, false, false, true, true⟩
/-- Diphthongs and translits allowed, doubled `t` apart. -/
def M1tr : Cfg := ⟨true, false, true, true, true⟩
/-- No phonemes, translits allowed. -/
def M0 : Cfg := ⟨false, false, false, true, false⟩

/-- The variants used for pronunciations. -/
def CF : List Cfg := [M1, M2, M1t]
/-- The variants used for romanization. -/
def CR : List Cfg := [M1r, M1tr]

theorem phUnion_fin (ps : List Phn) : Psa.phUnion ps = fin (ps.map Phn.ph) := by
  funext x
  simp only [Psa.phUnion, fin, List.mem_map]
  apply propext
  constructor
  · rintro ⟨p, hp, rfl⟩; exact ⟨p, hp, rfl⟩
  · rintro ⟨p, hp, rfl⟩; exact ⟨p, hp, rfl⟩

/-- Checks for some variants. -/
def checks (cs : List Cfg) (rs : List (Str × Str)) : Bool :=
  (cs.all fun cfg => rs.all (ruleCheck cfg false)) && detCheck false rs

/-- A stage for some variants. -/
def Sts (cs : List Cfg) (R : Rel) : Prop := (∀ cfg ∈ cs, St (OK cfg) (OK cfg) R) ∧ Det R

theorem sts_of_checks {cs : List Cfg} {rs : List (Str × Str)} (h : checks cs rs = true)
    (L R : Lang) : Sts cs (cdrewrite (rules rs) L R) := by
  rw [checks, Bool.and_eq_true] at h
  exact ⟨fun cfg hc => st_of_check (List.all_eq_true.1 h.1 cfg hc) L R,
    det_of_check h.2 L R (fun hb => by cases hb)⟩

/-- Checks with a right context that excludes the sign of composites. -/
def checksNP (cs : List Cfg) (rs : List (Str × Str)) : Bool :=
  (cs.all fun cfg => rs.all (ruleCheck cfg true)) && detCheck true rs

theorem sts_of_checksNP {cs : List Cfg} {rs : List (Str × Str)} (h : checksNP cs rs = true)
    (L R : Lang) (hnp : ∀ x, ¬ (ctxOf L R).right (a!"{+}" ++ x)) :
    Sts cs (cdrewrite (rules rs) L R) := by
  rw [checksNP, Bool.and_eq_true] at h
  exact ⟨fun cfg hc => st_of_check_np (List.all_eq_true.1 h.1 cfg hc) L R hnp,
    det_of_check h.2 L R (fun _ => hnp)⟩

/-- Stages for some variants. -/
def StsL (cs : List Cfg) (rs : List Rel) : Prop := ∀ R ∈ rs, Sts cs R

theorem stsL_append {cs : List Cfg} {rs ss : List Rel} (h : StsL cs rs) (k : StsL cs ss) :
    StsL cs (rs ++ ss) := by
  intro R hR
  rw [List.mem_append] at hR
  rcases hR with hR | hR
  exacts [h R hR, k R hR]

theorem stsL_nil {cs : List Cfg} : StsL cs [] := by intro R hR; cases hR
theorem stsL_cons {cs : List Cfg} {R : Rel} {rs : List Rel} (h : Sts cs R) (k : StsL cs rs) :
    StsL cs (R :: rs) := by
  intro S hS
  rw [List.mem_cons] at hS
  rcases hS with rfl | hS
  exacts [h, k S hS]

/-- The union of two relations. -/
def orR (R S : Rel) : Rel := fun x y => R x y ∨ S x y

theorem unionR_cons (R : Rel) (ls : List Rel) : unionR (R :: ls) = orR R (unionR ls) := by
  funext x y; simp [unionR, orR]

theorem orR_rules (rs ss : List (Str × Str)) : orR (rules rs) (rules ss) = rules (rs ++ ss) := by
  funext x y; simp [orR, rules]

/-- Writes a rewrite stage in the form of a rule list. -/
macro "nt_norm" : tactic => `(tactic|
  simp only [delete, merge, mergeRepeated, reassign, reassignWordFinal, reassignWordInitial,
    reassignAdjacent, rewriteWordFinal, rewriteWordInitial, rewrite, rewriteOp, realign, align,
    gr, ph, tr, phL, Rom.tr2, Psa.lNASAL, phUnion_fin,
    str_fin, cat_fin, alt_fin, oneOf_fin_cons, oneOf_nil, cross_fin])

macro "nt_stage" : tactic => `(tactic| (nt_norm; exact sts_of_checks (by decide +kernel) _ _))

/-- A list of stages given literally. -/
macro "nt_stages" : tactic => `(tactic|
  (repeat refine stsL_cons (by nt_stage) ?_
   exact stsL_nil))

set_option maxRecDepth 100000
attribute [local irreducible] Brh.gr Psa.ph Ltn.tr

namespace G2p

theorem st_A_AE : StsL [M1h] A_AE := by unfold A_AE; nt_stages
theorem st_A_TO_EC : StsL [M2] A_TO_EC := by unfold A_TO_EC; nt_stages
theorem st_VOCALIC_I : StsL CF VOCALIC_I := by unfold VOCALIC_I vocalic; nt_stages
theorem st_VOCALIC_U : StsL CF VOCALIC_U := by unfold VOCALIC_U vocalic; nt_stages
theorem st_VOCALIC_EC : StsL CF VOCALIC_EC := by unfold VOCALIC_EC vocalic; nt_stages
theorem st_SCHWA_A : StsL CF SCHWA_A := by unfold SCHWA_A defaultSchwa; nt_stages
theorem st_SCHWA_EC : StsL CF SCHWA_EC := by unfold SCHWA_EC defaultSchwa; nt_stages
theorem st_SCHWA_OH : StsL CF SCHWA_OH := by unfold SCHWA_OH defaultSchwa; nt_stages
theorem st_processSchwa (o c : Lang) : StsL CF (processSchwa o c) := by
  unfold processSchwa schwaEow schwaBetween vocalSchwa silentSchwa; nt_stages
theorem st_DEFAULT_ANUSVARA_LABIAL : StsL CF DEFAULT_ANUSVARA_LABIAL := by unfold DEFAULT_ANUSVARA_LABIAL assignNasal; nt_stages
theorem st_DEFAULT_ANUSVARA_DENTAL : StsL CF DEFAULT_ANUSVARA_DENTAL := by unfold DEFAULT_ANUSVARA_DENTAL assignNasal; nt_stages
theorem st_DEFAULT_ANUSVARA_VELAR : StsL CF DEFAULT_ANUSVARA_VELAR := by unfold DEFAULT_ANUSVARA_VELAR assignNasal; nt_stages
theorem st_FINAL_ANUSVARA_NASALIZATION : StsL CF FINAL_ANUSVARA_NASALIZATION := by
  unfold FINAL_ANUSVARA_NASALIZATION; nt_stages
theorem st_ANUSVARA_ASSIMILATION : StsL CF ANUSVARA_ASSIMILATION := by unfold ANUSVARA_ASSIMILATION assimilation assignNasal; nt_stages
theorem st_TIPPI_ASSIMILATION : StsL CF TIPPI_ASSIMILATION := by unfold TIPPI_ASSIMILATION assimilation assignNasal; nt_stages
theorem st_JNY_TO_GNY : StsL CF JNY_TO_GNY := by unfold JNY_TO_GNY rewriteJny; nt_stages
theorem st_JNY_TO_GY : StsL CF JNY_TO_GY := by unfold JNY_TO_GY rewriteJny; nt_stages
theorem st_JNY_TO_NY : StsL CF JNY_TO_NY := by unfold JNY_TO_NY rewriteJny; nt_stages
theorem st_JNY_TO_DNY : StsL CF JNY_TO_DNY := by unfold JNY_TO_DNY rewriteJny; nt_stages
theorem st_JNY_TO_GG : StsL CF JNY_TO_GG := by unfold JNY_TO_GG rewriteJny; nt_stages
theorem st_YY_Y : StsL [M1, M2] YY_Y := by unfold YY_Y; nt_stages
theorem st_OOYY_V : StsL CF OOYY_V := by unfold OOYY_V; nt_stages
theorem st_PH_F : StsL CF PH_F := by unfold PH_F; nt_stages
theorem st_BH_V : StsL CF BH_V := by unfold BH_V; nt_stages
theorem st_B_V : StsL CF B_V := by unfold B_V; nt_stages
theorem st_PHPH_TO_FF : StsL CF PHPH_TO_FF := by unfold PHPH_TO_FF; nt_stages
theorem st_REMOVE_ASP_FROM_GEMINATE : StsL [M1, M2] REMOVE_ASP_FROM_GEMINATE := by unfold REMOVE_ASP_FROM_GEMINATE; nt_stages
theorem st_RT_TO_R : StsL CF RT_TO_R := by unfold RT_TO_R; nt_stages
theorem st_H_ASP : StsL CF H_ASP := by unfold H_ASP; nt_stages
theorem st_AUM_AON : StsL CF AUM_AON := by unfold AUM_AON; nt_stages
theorem st_OAM_AON : StsL CF OAM_AON := by unfold OAM_AON; nt_stages
theorem st_ANSVA_AON : StsL CF ANSVA_AON := by unfold ANSVA_AON; nt_stages
theorem st_ADDAK : ∀ R ∈ ADDAK, St (OK M1) (OK M1) R := by
  have h : rewriteOp (unionR ((Brh.ONSET_CONSONANT.map
      (fun c => (str c.ph, str (c.ph ++ c.ph)))).map (fun p => cross p.1 p.2))) (some (ph a!"SIL")) none =
      rewriteOp (rules (Brh.ONSET_CONSONANT.map (fun c => (c.ph, c.ph ++ c.ph)))) (some (ph a!"SIL"))
        none := by
    rw [List.map_map, ← unionR_map]; rfl
  intro R hR
  rw [ADDAK, List.mem_singleton] at hR
  rw [hR, rewriteLs, h]
  exact st_of_check (by decide +kernel) _ _

theorem st_RR_TT : StsL CF RR_TT := by unfold RR_TT; nt_stages
theorem st_NR_NDR : StsL CF NR_NDR := by unfold NR_NDR; nt_stages

end G2p

namespace Rom

theorem st_SIBV_TO_SIBW : StsL CR SIBV_TO_SIBW := by unfold SIBV_TO_SIBW; nt_stages
theorem st_NON_LABIAL_ANUSVARA : StsL CR NON_LABIAL_ANUSVARA := by unfold NON_LABIAL_ANUSVARA; nt_stages
theorem st_NYJ_NJ : StsL CR NYJ_NJ := by unfold NYJ_NJ; nt_stages
theorem st_GAAV_GAON : StsL CR GAAV_GAON := by unfold GAAV_GAON; nt_stages
theorem st_OO_AO_BEFORE_ANUSVARA : StsL CR OO_AO_BEFORE_ANUSVARA := by unfold OO_AO_BEFORE_ANUSVARA; nt_stages
theorem st_AE_A : StsL CR AE_A := by unfold AE_A; nt_stages
theorem st_OH_A : StsL CR OH_A := by unfold OH_A; nt_stages
theorem st_AA_AO_CND : StsL CR AA_AO_CND := by unfold AA_AO_CND; nt_stages
theorem st_WF_CND_OO : StsL CR WF_CND_OO := by unfold WF_CND_OO; nt_stages
theorem st_OOYY_W : StsL CR OOYY_W := by unfold OOYY_W; nt_stages
theorem st_IYY_I : StsL CR IYY_I := by unfold IYY_I; nt_stages
theorem st_EN_LIKE_LONG : StsL CR EN_LIKE_LONG := by unfold EN_LIKE_LONG; nt_stages
theorem st_EE_AE : StsL CR EE_AE := by unfold EE_AE; nt_stages
theorem st_OO_OA : StsL CR OO_OA := by unfold OO_OA; nt_stages
theorem st_TI_TH : StsL CR TI_TH := by unfold TI_TH; nt_stages
theorem st_RD_R : StsL CR RD_R := by unfold RD_R; nt_stages
theorem st_RDH_DH : StsL CR RDH_DH := by unfold RDH_DH; nt_stages
theorem st_NY_N : StsL CR NY_N := by unfold NY_N; nt_stages
theorem st_NY_GN : StsL CR NY_GN := by unfold NY_GN; nt_stages
theorem st_DIPHTHONG_GR : StsL CR DIPHTHONG_GR := by unfold DIPHTHONG_GR; nt_stages
theorem st_CC_TO_CCH : StsL CR CC_TO_CCH := by unfold CC_TO_CCH; nt_stages
theorem st_CCH_TO_CHH : StsL CR CCH_TO_CHH := by unfold CCH_TO_CHH; nt_stages
theorem st_S_SHSH_TO_SSH : StsL CR S_SHSH_TO_SSH := by unfold S_SHSH_TO_SSH; nt_stages
theorem st_IGNORE_LONG : StsL [M1r] IGNORE_LONG := by unfold IGNORE_LONG; nt_stages
theorem st_TRANSLIT_LONG : StsL [M1r] TRANSLIT_LONG := by
  have h : (Psa.PHONEMES.all fun p => checks [M1r]
      [(p.ph ++ Psa.ph a!"DURH", Ltn.doubleSubstringTr p.psa)]) = true := by decide +kernel
  intro R hR
  rw [TRANSLIT_LONG, List.mem_map] at hR
  obtain ⟨p, hp, rfl⟩ := hR
  rw [rewrite, str_fin, str_fin, cross_fin]
  exact sts_of_checks (List.all_eq_true.1 h p hp) _ _

theorem st_TT_TR : StsL [M1tr] TT_TR := by unfold TT_TR; nt_stages
theorem st0_CC_TO_CCH : StsL [M0] CC_TO_CCH := by unfold CC_TO_CCH; nt_stages
theorem st0_CCH_TO_CHH : StsL [M0] CCH_TO_CHH := by unfold CCH_TO_CHH; nt_stages
theorem st0_S_SHSH_TO_SSH : StsL [M0] S_SHSH_TO_SSH := by unfold S_SHSH_TO_SSH; nt_stages

end Rom

end Nisaba.NT
