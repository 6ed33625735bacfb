import Verif.Lemmas.NtIso
/-!
# The grammars of the languages, stage by stage
-/
namespace Nisaba.NT
open G2p Rom

theorem stsL_mono {cs cs' : List Cfg} {rs : List Rel} (h : StsL cs rs) (hc : ∀ c ∈ cs', c ∈ cs) :
    StsL cs' rs := fun R hR => ⟨fun cfg hcfg => (h R hR).1 cfg (hc cfg hcfg), (h R hR).2⟩

theorem StD.weaken {P P' Q Q' : List Tok → Prop} {R : Rel} (h : StD P Q R)
    (hp : ∀ ts, P' ts → P ts) (hq : ∀ ts, Q ts → Q' ts) : StD P' Q' R :=
  ⟨h.1.weaken hp hq, h.2⟩

/-- Stages for one variant. -/
theorem stD1 {cs : List Cfg} {rs : List Rel} {cfg : Cfg} (h : StsL cs rs) (hc : cfg ∈ cs) :
    StD (OK cfg) (OK cfg) (compose rs) := stsL_compose h hc

theorem cfM1 : M1 ∈ CF := by simp [CF]
theorem cfM2 : M2 ∈ CF := by simp [CF]
theorem cfM1t : M1t ∈ CF := by simp [CF]
theorem crM1r : M1r ∈ CR := by simp [CR]
theorem crM1tr : M1tr ∈ CR := by simp [CR]

theorem ok_M1_M1r (ts : List Tok) (h : OK M1 ts) : OK M1r ts := h.mono incl_M1_M1r
theorem ok_M2_M1r (ts : List Tok) (h : OK M2 ts) : OK M1r ts := h.mono incl_M2_M1r
theorem ok_M1t_M1r (ts : List Tok) (h : OK M1t ts) : OK M1r ts := (h.mono incl_M1t_M1).mono incl_M1_M1r

/-! ## Last parts -/

theorem st_COMMON : StsL CR TXN_TO_PSA_COMMON :=
  stsL_append (stsL_append st_DIPHTHONG_GR st_NON_LABIAL_ANUSVARA) st_RDH_DH

theorem psaf_tail (m : Mode) : Blk (OK M1r) (TXN_TO_PSAF m) Lower := by
  rw [TXN_TO_PSAF, List.append_assoc]
  exact Blk.after (stD_append (stD1 st_COMMON crM1r) (stD1 st_TRANSLIT_LONG (by simp))) (psa_blk m)

theorem psac_tail (m : Mode) : Blk (OK M1r) (TXN_TO_PSAC m) Lower := by
  rw [TXN_TO_PSAC, List.append_assoc (TXN_TO_PSA_COMMON ++ IGNORE_LONG), List.append_assoc]
  exact Blk.after (stD_append (stD1 st_COMMON crM1r) (stD1 st_IGNORE_LONG (by simp)))
    (psac_blk m)

theorem nat_tail (m : Mode) :
    Blk (OK M1r) (TXN_TO_PSA_COMMON ++ TRANSLIT_BY_PSA ++ printOnlyLtn m) Lower := by
  rw [List.append_assoc]
  exact Blk.after (stD1 st_COMMON crM1r) (psa_blk m)

theorem midsTail (m : Mode) : Blk (OK M1r) (IGNORE_LONG ++ TRANSLIT_BY_PSA ++ CC_TO_CCH ++
    CCH_TO_CHH ++ S_SHSH_TO_SSH ++ printOnlyLtn m) Lower := by
  have : IGNORE_LONG ++ TRANSLIT_BY_PSA ++ CC_TO_CCH ++ CCH_TO_CHH ++ S_SHSH_TO_SSH ++
      printOnlyLtn m = IGNORE_LONG ++ (TRANSLIT_BY_PSA ++ (mids ++ printOnlyLtn m)) := by
    simp only [mids, List.append_assoc]
  rw [this]
  exact Blk.after (stD1 st_IGNORE_LONG (by simp)) (psa_mids_blk m)

theorem gaon_tail (m : Mode) : Blk (OK M1r) (gaonNat m) Lower := by
  have : gaonNat m = SIBV_TO_SIBW ++ OO_AO_BEFORE_ANUSVARA ++ GAAV_GAON ++ TXN_TO_PSA_COMMON ++
      (IGNORE_LONG ++ TRANSLIT_BY_PSA ++ CC_TO_CCH ++ CCH_TO_CHH ++ S_SHSH_TO_SSH ++
        printOnlyLtn m) := by simp only [gaonNat, List.append_assoc]
  rw [this]
  exact Blk.after (stD1 (stsL_append (stsL_append (stsL_append st_SIBV_TO_SIBW
    st_OO_AO_BEFORE_ANUSVARA) st_GAAV_GAON) st_COMMON) crM1r) (midsTail m)

/-! ## Pronunciations -/

theorem te_txn : StD (OK M1) (OK M1) (compose Te.txn) :=
  stD1 (stsL_append (stsL_append (stsL_append (stsL_append st_VOCALIC_U st_SCHWA_A)
    st_ANUSVARA_ASSIMILATION) st_DEFAULT_ANUSVARA_LABIAL) st_JNY_TO_GNY) cfM1

theorem kn_txn : StD (OK M1) (OK M1) (compose Kn.txn) :=
  stD1 (stsL_append (stsL_append (stsL_append (stsL_append (stsL_append st_RT_TO_R st_VOCALIC_U)
    st_SCHWA_A) st_ANUSVARA_ASSIMILATION) st_DEFAULT_ANUSVARA_LABIAL) st_JNY_TO_GNY) cfM1

theorem st_AI_AU2 : StD (OK M1) (OK M2) (compose (AI_TO_EH_LONG ++ AU_TO_OH_LONG)) :=
  st_AI_AU.weaken (fun _ h => h) fun _ h => h.ok

theorem st_PROCESS_SCHWA : StsL CF PROCESS_SCHWA := st_processSchwa _ _

theorem m2_of_cf {rs : List Rel} (h : StsL CF rs) : StsL [M2] rs :=
  stsL_mono h fun c hc => by rw [List.mem_singleton] at hc; subst hc; exact cfM2

theorem hi_txn : StD (OK M1) (OK M2) (compose Hi.txn) := by
  have : Hi.txn = (AI_TO_EH_LONG ++ AU_TO_OH_LONG) ++ (A_TO_EC ++ (VOCALIC_I ++
    ANUSVARA_ASSIMILATION ++ PROCESS_SCHWA ++ SCHWA_EC ++ DEFAULT_ANUSVARA_DENTAL ++
    FINAL_ANUSVARA_NASALIZATION ++ JNY_TO_GY ++ PHPH_TO_FF)) := by
    simp only [Hi.txn, List.append_assoc]
  rw [this]
  exact stD_append st_AI_AU2 (stD1 (stsL_append st_A_TO_EC (m2_of_cf (stsL_append (stsL_append
    (stsL_append (stsL_append (stsL_append (stsL_append (stsL_append st_VOCALIC_I
    st_ANUSVARA_ASSIMILATION) st_PROCESS_SCHWA) st_SCHWA_EC) st_DEFAULT_ANUSVARA_DENTAL)
    st_FINAL_ANUSVARA_NASALIZATION) st_JNY_TO_GY) st_PHPH_TO_FF))) (by simp))

theorem mr_txn : StD (OK M1) (OK M2) (compose Mr.txn) := by
  have : Mr.txn = (AI_TO_EH_LONG ++ AU_TO_OH_LONG) ++ (A_TO_EC ++ (VOCALIC_U ++ H_ASP ++
    ANUSVARA_ASSIMILATION ++ PROCESS_SCHWA ++ SCHWA_EC ++ DEFAULT_ANUSVARA_DENTAL ++
    JNY_TO_DNY ++ PH_F)) := by
    simp only [Mr.txn, List.append_assoc]
  rw [this]
  exact stD_append st_AI_AU2 (stD1 (stsL_append st_A_TO_EC (m2_of_cf (stsL_append (stsL_append
    (stsL_append (stsL_append (stsL_append (stsL_append (stsL_append st_VOCALIC_U st_H_ASP)
    st_ANUSVARA_ASSIMILATION) st_PROCESS_SCHWA) st_SCHWA_EC) st_DEFAULT_ANUSVARA_DENTAL)
    st_JNY_TO_DNY) st_PH_F))) (by simp))

theorem gu_txn : StD (OK M2) (OK M2) (compose Gu.txn) := by
  have : Gu.txn = A_TO_EC ++ (VOCALIC_U ++ ANUSVARA_ASSIMILATION ++ PROCESS_SCHWA ++ SCHWA_EC ++
    DEFAULT_ANUSVARA_DENTAL ++ JNY_TO_DNY ++ PH_F) := by
    simp only [Gu.txn, List.append_assoc]
  rw [this]
  exact stD1 (stsL_append st_A_TO_EC (m2_of_cf (stsL_append (stsL_append
    (stsL_append (stsL_append (stsL_append (stsL_append st_VOCALIC_U
    st_ANUSVARA_ASSIMILATION) st_PROCESS_SCHWA) st_SCHWA_EC) st_DEFAULT_ANUSVARA_DENTAL)
    st_JNY_TO_DNY) st_PH_F))) (by simp)

/-- The stages of Punjabi after the first one. -/
def paRest : List Rel :=
  (AI_TO_EH_LONG ++ AU_TO_OH_LONG) ++ (A_TO_EC ++ ((VOCALIC_I ++ ANUSVARA_ASSIMILATION ++
    TIPPI_ASSIMILATION ++ AUM_AON ++ OAM_AON ++ ANSVA_AON ++ PROCESS_SCHWA ++ SCHWA_EC ++ PH_F) ++
    REMOVE_ASP_FROM_GEMINATE))

theorem pa_eq : Pa.txn = ADDAK ++ paRest := by
  simp only [Pa.txn, paRest, List.append_assoc]

theorem pa_rest : StD (OK M1) (OK M2) (compose paRest) :=
  stD_append st_AI_AU2 (stD1 (stsL_append st_A_TO_EC (stsL_append (m2_of_cf (stsL_append (stsL_append
    (stsL_append (stsL_append (stsL_append (stsL_append (stsL_append (stsL_append st_VOCALIC_I
    st_ANUSVARA_ASSIMILATION) st_TIPPI_ASSIMILATION) st_AUM_AON) st_OAM_AON) st_ANSVA_AON)
    st_PROCESS_SCHWA) st_SCHWA_EC) st_PH_F)) (stsL_mono st_REMOVE_ASP_FROM_GEMINATE (by simp))))
    (by simp))

theorem pa_txn : St (OK M1) (OK M2) (compose Pa.txn) := by
  rw [pa_eq]
  exact st_append (st_compose st_ADDAK) pa_rest.1

theorem bn_txn : StD (OK M1h) (OK M1) (compose Bn.txn) := by
  have : Bn.txn = A_AE ++ ((VOCALIC_I ++ processSchwa onsetCl (codaCl (alt Psa.lSTOP Psa.lAFFRICATE)) ++
    SCHWA_OH ++ DEFAULT_ANUSVARA_VELAR ++ JNY_TO_GG) ++ (YY_Y ++ (OOYY_V ++ BH_V ++ B_V ++ PH_F))) := by
    simp only [Bn.txn, List.append_assoc]
  rw [this]
  refine stD_append ((stD1 st_A_AE (by simp)).weaken (fun _ h => h) fun _ h => h.mono incl_M1h_M1) ?_
  refine stD_append (stD1 (stsL_append (stsL_append (stsL_append (stsL_append st_VOCALIC_I
    (st_processSchwa _ _)) st_SCHWA_OH) st_DEFAULT_ANUSVARA_VELAR) st_JNY_TO_GG) cfM1) ?_
  refine stD_append (stD1 st_YY_Y (by simp)) ?_
  exact stD1 (stsL_append (stsL_append (stsL_append st_OOYY_V st_BH_V) st_B_V) st_PH_F) cfM1

/-- The stages of Malayalam after the first one. -/
def mlRest : List Rel :=
  (VOCALIC_EC ++ SCHWA_A ++ ANUSVARA_ASSIMILATION ++ DEFAULT_ANUSVARA_LABIAL ++ RR_TT) ++
    (Ml.VOICING ++ (Ml.POSTNASAL_TT ++ JNY_TO_NY))

theorem ml_eq : Ml.txn = WF_VIRAMA_U ++ mlRest := by
  simp only [Ml.txn, mlRest, List.append_assoc]

theorem ml_rest : StD (OK M1) (OK M1) (compose mlRest) :=
  stD_append (stD1 (stsL_append (stsL_append (stsL_append (stsL_append st_VOCALIC_EC st_SCHWA_A)
    st_ANUSVARA_ASSIMILATION) st_DEFAULT_ANUSVARA_LABIAL) st_RR_TT) cfM1)
    (stD_append (stD1 Ml.st_VOICING (by simp)) (stD_append (stD1 Ml.st_POSTNASAL_TT (by simp))
      (stD1 st_JNY_TO_NY cfM1)))

theorem ta_txn : StD (OK M1t) (OK M1t) (compose Ta.txn) := by
  have : Ta.txn = (VOCALIC_EC ++ SCHWA_A ++ ANUSVARA_ASSIMILATION ++ DEFAULT_ANUSVARA_LABIAL ++
    RR_TT ++ NR_NDR) ++ (Ta.NY_TSH ++ (Ta.VOICING ++ (Ta.C_WI ++ JNY_TO_NY))) := by
    simp only [Ta.txn, List.append_assoc]
  rw [this]
  exact stD_append (stD1 (stsL_append (stsL_append (stsL_append (stsL_append (stsL_append
    st_VOCALIC_EC st_SCHWA_A) st_ANUSVARA_ASSIMILATION) st_DEFAULT_ANUSVARA_LABIAL) st_RR_TT)
    st_NR_NDR) cfM1t) (stD_append (stD1 Ta.st_NY_TSH (by simp)) (stD_append (stD1 Ta.st_VOICING
    (by simp)) (stD_append (stD1 Ta.st_C_WI (by simp)) (stD1 st_JNY_TO_NY cfM1t))))

/-- A stage that may add graphemes. -/
theorem Blk.afterE {E : List Str → List Str → Prop} {P Q : List Tok → Prop} {rs ss : List Rel}
    {good : Str → Prop} (h : ClosedE E P Q (compose rs)) (ht : Tot P (compose rs))
    (hd : Det (compose rs)) (k : Blk Q ss good) : Blk P (rs ++ ss) good := by
  intro ts hts
  obtain ⟨y, hy⟩ := ht ts hts
  obtain ⟨us, rfl, hq, _⟩ := h ts hts y hy
  obtain ⟨z, h1, h2, h3⟩ := k us hq
  refine ⟨z, h1, (compose_append ..).2 ⟨_, hy, h2⟩, ?_⟩
  intro z' hz'
  obtain ⟨u, hu, hz'⟩ := (compose_append ..).1 hz'
  rw [hd _ _ _ hu hy] at hz'
  exact h3 z' hz'

theorem ml_blk {ss : List Rel} {good : Str → Prop} (k : Blk (OK M1) ss good) :
    Blk (OK M1) (Ml.txn ++ ss) good := by
  rw [ml_eq, List.append_assoc]
  exact Blk.afterE st_WF_VIRAMA_U.1 st_WF_VIRAMA_U.2.1 st_WF_VIRAMA_U.2.2 (Blk.after ml_rest k)

/-! ## Natural romanizations -/

theorem pa_nat_tail (m : Mode) : Blk (OK M1r) (RD_R ++ SIBV_TO_SIBW ++ TXN_TO_PSA_COMMON ++
    IGNORE_LONG ++ TRANSLIT_BY_PSA ++ CC_TO_CCH ++ CCH_TO_CHH ++ S_SHSH_TO_SSH ++ printOnlyLtn m)
    Lower := by
  have : RD_R ++ SIBV_TO_SIBW ++ TXN_TO_PSA_COMMON ++
    IGNORE_LONG ++ TRANSLIT_BY_PSA ++ CC_TO_CCH ++ CCH_TO_CHH ++ S_SHSH_TO_SSH ++ printOnlyLtn m =
    RD_R ++ SIBV_TO_SIBW ++ TXN_TO_PSA_COMMON ++ (IGNORE_LONG ++ TRANSLIT_BY_PSA ++ CC_TO_CCH ++
      CCH_TO_CHH ++ S_SHSH_TO_SSH ++ printOnlyLtn m) := by simp only [List.append_assoc]
  rw [this]
  exact Blk.after (stD1 (stsL_append (stsL_append st_RD_R st_SIBV_TO_SIBW) st_COMMON) crM1r)
    (midsTail m)

theorem st_psaOps : StsL CR Bn.psaOps := stsL_append (stsL_append st_AE_A st_OH_A) st_RD_R

theorem bn_nat_tail (m : Mode) : Blk (OK M1r) (Bn.psaOps ++ SIBV_TO_SIBW ++ NYJ_NJ ++ AA_AO_CND ++
    WF_CND_OO ++ OOYY_W ++ IYY_I ++ IGNORE_LONG ++ TRANSLIT_BY_PSA ++ CC_TO_CCH ++ CCH_TO_CHH ++
    S_SHSH_TO_SSH ++ printOnlyLtn m) Lower := by
  have : Bn.psaOps ++ SIBV_TO_SIBW ++ NYJ_NJ ++ AA_AO_CND ++
    WF_CND_OO ++ OOYY_W ++ IYY_I ++ IGNORE_LONG ++ TRANSLIT_BY_PSA ++ CC_TO_CCH ++ CCH_TO_CHH ++
    S_SHSH_TO_SSH ++ printOnlyLtn m = (Bn.psaOps ++ SIBV_TO_SIBW ++ NYJ_NJ ++ AA_AO_CND ++
    WF_CND_OO ++ OOYY_W ++ IYY_I) ++ (IGNORE_LONG ++ TRANSLIT_BY_PSA ++ CC_TO_CCH ++
      CCH_TO_CHH ++ S_SHSH_TO_SSH ++ printOnlyLtn m) := by simp only [List.append_assoc]
  rw [this]
  exact Blk.after (stD1 (stsL_append (stsL_append (stsL_append (stsL_append (stsL_append
    (stsL_append st_psaOps st_SIBV_TO_SIBW) st_NYJ_NJ) st_AA_AO_CND) st_WF_CND_OO) st_OOYY_W)
    st_IYY_I) crM1r) (midsTail m)

theorem bn_psaf_tail (m : Mode) :
    Blk (OK M1r) (Bn.psaOps ++ TRANSLIT_LONG ++ TRANSLIT_BY_PSA ++ printOnlyLtn m) Lower := by
  rw [List.append_assoc]
  exact Blk.after (stD_append (stD1 st_psaOps crM1r) (stD1 st_TRANSLIT_LONG (by simp))) (psa_blk m)

theorem bn_psac_tail (m : Mode) : Blk (OK M1r) (Bn.psaOps ++ IGNORE_LONG ++ TRANSLIT_BY_PSA ++
    printOnlyLtn m ++ REMOVE_REPEATED_LTN) Lower := by
  rw [List.append_assoc (Bn.psaOps ++ IGNORE_LONG), List.append_assoc]
  exact Blk.after (stD_append (stD1 st_psaOps crM1r) (stD1 st_IGNORE_LONG (by simp)))
    (psac_blk m)

theorem ml_nat_tail (m : Mode) : Blk (OK M1r) (Ml.natOps ++ TXN_TO_PSA_COMMON ++ TRANSLIT_BY_PSA ++
    printOnlyLtn m) Lower := by
  rw [List.append_assoc, List.append_assoc, ← List.append_assoc TXN_TO_PSA_COMMON]
  exact Blk.after (stD1 (stsL_append (stsL_append (stsL_append (stsL_append (stsL_append
    (stsL_append (stsL_append st_EN_LIKE_LONG st_TI_TH) st_CC_TO_CCH) st_CCH_TO_CHH)
    st_S_SHSH_TO_SSH) st_SIBV_TO_SIBW) st_NY_N) st_NY_GN) crM1r) (nat_tail m)

theorem ta_nat_tail (m : Mode) : Blk (OK M1tr) (Ta.natOps ++ TXN_TO_PSA_COMMON ++ TRANSLIT_BY_PSA ++
    printOnlyLtn m) Lower := by
  have : Ta.natOps ++ TXN_TO_PSA_COMMON ++ TRANSLIT_BY_PSA ++ printOnlyLtn m =
    (EN_LIKE_LONG ++ EE_AE ++ OO_OA ++ TI_TH) ++ (TT_TR ++ ((CC_TO_CCH ++ CCH_TO_CHH ++
      S_SHSH_TO_SSH ++ SIBV_TO_SIBW ++ NY_N ++ NY_GN) ++ (TXN_TO_PSA_COMMON ++ TRANSLIT_BY_PSA ++
      printOnlyLtn m))) := by simp only [Ta.natOps, List.append_assoc]
  rw [this]
  refine Blk.after (stD1 (stsL_append (stsL_append (stsL_append st_EN_LIKE_LONG st_EE_AE) st_OO_OA)
    st_TI_TH) crM1tr) ?_
  refine Blk.after ((stD1 st_TT_TR (by simp)).weaken (fun _ h => h)
    fun _ h => h.mono incl_M1tr_M1r) ?_
  exact Blk.after (stD1 (stsL_append (stsL_append (stsL_append (stsL_append (stsL_append
    st_CC_TO_CCH st_CCH_TO_CHH) st_S_SHSH_TO_SSH) st_SIBV_TO_SIBW) st_NY_N) st_NY_GN) crM1r)
    (nat_tail m)

/-! ## Whole grammars -/

/-- From a last part to a grammar. -/
theorem whole {m : Mode} {P : List Tok → Prop} {rs : List Rel} {good : Str → Prop}
    (h : Blk P rs good) {cs : List Chr} (hc : IsoCs cs)
    (hp : ∀ ts, Typ ts → compose (isoToTypRules m) (m.labels (cs.flatMap Chr.glyph)) (enc ts) →
      P (ts.flatMap alTok)) :
    ∃ y, good y ∧ compose (isoToTxn m ++ rs) (m.labels (cs.flatMap Chr.glyph)) y ∧
      ∀ z, compose (isoToTxn m ++ rs) (m.labels (cs.flatMap Chr.glyph)) z → z = y := by
  obtain ⟨ts, h1, h2, h3, h4⟩ := isoTxn_stage m hc
  obtain ⟨y, g1, g2, g3⟩ := h _ (hp ts h1.1 h2)
  refine ⟨y, g1, (compose_append ..).2 ⟨_, h3, g2⟩, ?_⟩
  intro z hz
  obtain ⟨u, hu, hz⟩ := (compose_append ..).1 hz
  rw [h4 u hu] at hz
  exact g3 z hz

theorem wholeE {m : Mode} {P : List Tok → Prop} {rs : List Rel} {good : Str → Prop}
    (h : BlkE P rs good) {cs : List Chr} (hc : IsoCs cs)
    (hp : ∀ ts, Typ ts → P (ts.flatMap alTok)) :
    (∃ y, compose (isoToTxn m ++ rs) (m.labels (cs.flatMap Chr.glyph)) y) ∧
      ∀ z, compose (isoToTxn m ++ rs) (m.labels (cs.flatMap Chr.glyph)) z → good z := by
  obtain ⟨ts, h1, h2, h3, h4⟩ := isoTxn_stage m hc
  obtain ⟨⟨y, g1⟩, g2⟩ := h _ (hp ts h1.1)
  refine ⟨⟨y, (compose_append ..).2 ⟨_, h3, g1⟩⟩, ?_⟩
  intro z hz
  obtain ⟨u, hu, hz⟩ := (compose_append ..).1 hz
  rw [h4 u hu] at hz
  exact g2 z hz

end Nisaba.NT
