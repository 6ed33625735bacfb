import Verif.Model.NtInventory
/-!
# Model of the Brahmic grapheme-to-phoneme and romanization rules of natural_translit

`brahmic/g2p.py`, `brahmic/romanizer.py`, `phonology/operations/syllable.py`,
`phonology/operations/voicing.py` and the `iso_to_*` functions of `language_params/*.py`.
A rule that composes several transducers with `@` or `FstList.compose` is the list of them; the
grammar of a language is the composition (`compose`) of the flattened list.  `.optimize()` does not
change the relation.
-/
namespace Nisaba.NT

/-- An attribute of `iso.GRAPHEME_INVENTORY` as an acceptor. -/
def gr (a : Str) : Lang := str (Brh.gr a)
/-- An attribute of `psa.PHONEME_INVENTORY` as an acceptor. -/
def ph (a : Str) : Lang := str (Psa.ph a)
/-- An attribute of `ltn.TRANSLIT_INVENTORY` as an acceptor. -/
def tr (a : Str) : Lang := str (Ltn.tr a)
/-- `ph.X + ph.DURH`. -/
def phL (a : Str) : Lang := cat (ph a) (ph a!"DURH")

/-! ## phonology/operations/syllable.py, phonology/operations/voicing.py -/

/-- syllable.py:22-58 `legal_onset`. -/
def legalOnset (nucleic nonNucleic cl : Lang) : Lang := concatR (oneOf [nonNucleic, cl]) nucleic
/-- syllable.py:61-96 `legal_coda`. -/
def legalCoda (nucleic nonNucleic cl : Lang) : Lang := concatR nucleic (ques (oneOf [nonNucleic, cl]))

/-- voicing.py:27-33; the phonemes are those of the multilingual inventory. -/
def mulPh (a : Str) : Lang := str (Mul.ph a).ph
def K_G : Lang × Lang := (mulPh a!"K", mulPh a!"G")
def P_B : Lang × Lang := (mulPh a!"P", mulPh a!"B")
def T_D : Lang × Lang := (mulPh a!"T", mulPh a!"D")
def TI_DI : Lang × Lang := (mulPh a!"TI", mulPh a!"DI")
def TT_DD : Lang × Lang := (mulPh a!"TT", mulPh a!"DD")
def TSH_DZH : Lang × Lang := (mulPh a!"T_SH", mulPh a!"D_ZH")
def TSH_S : Lang × Lang := (mulPh a!"T_SH", mulPh a!"S")

/-- voicing.py:35-41 `voicing`. -/
def voicing (ops : List (Lang × Lang)) (preceding following : Option Lang := none) : Rel :=
  rewriteLs ops preceding following

/-! ## brahmic/g2p.py -/
namespace G2p

/-- g2p.py:27-29 `TYP_TO_TXN`. -/
def TYP_TO_TXN : Rel := StarR (unionR (Brh.CHAR.map (fun c => assign (str c.gr) (str c.ph))))

/-- g2p.py:32-34 `iso_to_txn`. -/
def isoToTxn (m : Mode) : List Rel := isoToTypRules m ++ [TYP_TO_TXN]

/-- g2p.py:46-49 `A_TO_EC`. -/
def A_TO_EC : List Rel := [rewrite (ph a!"A") (ph a!"EC"), rewrite (phL a!"EC") (phL a!"A")]
/-- g2p.py:50 `A_AE`. -/
def A_AE : List Rel := [reassign (gr a!"A_I") (ph a!"A") (ph a!"AE")]
/-- g2p.py:53 `AI_TO_EH_LONG`. -/
def AI_TO_EH_LONG : List Rel := [rewrite (ph a!"A_I") (phL a!"EH")]
/-- g2p.py:54 `AU_TO_OH_LONG`. -/
def AU_TO_OH_LONG : List Rel := [rewrite (ph a!"A_U") (phL a!"OH")]

/-- g2p.py:59-61 `vocalic`. -/
def vocalic (v vl : Lang) : List Rel := [rewrite (ph a!"SYL") v, rewrite (phL a!"SYL") vl]
/-- g2p.py:63-65. -/
def VOCALIC_I : List Rel := vocalic (ph a!"I") (phL a!"I")
def VOCALIC_U : List Rel := vocalic (ph a!"U") (phL a!"U")
def VOCALIC_EC : List Rel := vocalic (ph a!"EC") (phL a!"EC")

/-- g2p.py:70-72 `default_schwa`. -/
def defaultSchwa (s : Lang) : List Rel := [rewrite (alt (ph a!"V_TNT") (ph a!"V_PRN")) s]
/-- g2p.py:74-76. -/
def SCHWA_A : List Rel := defaultSchwa (ph a!"A")
def SCHWA_EC : List Rel := defaultSchwa (ph a!"EC")
def SCHWA_OH : List Rel := defaultSchwa (ph a!"OH")

/-- g2p.py:79-88 `vocal_schwa`. -/
def vocalSchwa (preceding following : Option Lang := none) : Rel :=
  rewrite (ph a!"V_TNT") (ph a!"V_PRN") preceding following
/-- g2p.py:91-100 `silent_schwa`. -/
def silentSchwa (preceding following : Option Lang := none) : Rel :=
  rewrite (ph a!"V_TNT") (ph a!"SIL") preceding following

/-- g2p.py:109-113 `schwa_eow`. -/
def schwaEow (codaCl : Lang) : Rel :=
  silentSchwa (some (legalCoda Psa.lVOWEL Psa.lCONSONANT codaCl)) (some (str [eos]))
/-- g2p.py:116-120 `schwa_between_syllables`. -/
def schwaBetween (onsetCl codaCl : Lang) : Rel :=
  silentSchwa (some (legalCoda Psa.lVOWEL Psa.lCONSONANT codaCl))
    (some (legalOnset Psa.lVOWEL Psa.lCONSONANT onsetCl))

/-- g2p.py:103-106 and 123-133 `process_schwa`. -/
def processSchwa (onsetCl codaCl : Lang) : List Rel :=
  [vocalSchwa none (some Brh.lCODA),
   vocalSchwa none (some Brh.lVOWEL_I),
   vocalSchwa (some (concatR (alt (ph a!"I") (phL a!"I")) (ph a!"Y"))) none,
   schwaEow codaCl,
   schwaBetween onsetCl codaCl]

/-- g2p.py:138-173 `assign_nasal`. -/
def assignNasal (nasal phoneme : Lang) (place : Option Lang := none) : Rel :=
  reassign nasal (ph a!"NSL") phoneme none place
/-- g2p.py:175-178. -/
def DEFAULT_ANUSVARA_LABIAL : List Rel := [assignNasal (gr a!"ANS") (ph a!"M")]
def DEFAULT_ANUSVARA_DENTAL : List Rel := [assignNasal (gr a!"ANS") (ph a!"NI")]
def DEFAULT_ANUSVARA_VELAR : List Rel := [assignNasal (gr a!"ANS") (ph a!"NG")]
def FINAL_ANUSVARA_NASALIZATION : List Rel :=
  [reassignWordFinal (gr a!"ANS") Psa.lNASAL (ph a!"NSL")]

/-- g2p.py:181-186 `ANUSVARA_ASSIMILATION` and g2p.py:188-193 `TIPPI_ASSIMILATION`. -/
def assimilation (nasal : Lang) : List Rel :=
  [assignNasal nasal (ph a!"M") (some Psa.lLABIAL),
   assignNasal nasal (ph a!"NI") (some Psa.lDENTAL),
   assignNasal nasal (ph a!"NY") (some Psa.lALVEOLAR),
   assignNasal nasal (ph a!"NY") (some Psa.lPALATAL),
   assignNasal nasal (ph a!"NN") (some Psa.lRETROFLEX),
   assignNasal nasal (ph a!"NG") (some Psa.lVELAR)]
def ANUSVARA_ASSIMILATION : List Rel := assimilation (gr a!"ANS")
def TIPPI_ASSIMILATION : List Rel := assimilation (gr a!"TIP")

/-- g2p.py:199-205 `rewrite_jny`. -/
def rewriteJny (j ny : Lang) : List Rel :=
  [reassignAdjacent (gr a!"J") (ph a!"D_ZH") j (gr a!"NY") (ph a!"NY") ny]
/-- g2p.py:207-211. -/
def JNY_TO_GNY : List Rel := rewriteJny (ph a!"G") (ph a!"NY")
def JNY_TO_GY : List Rel := rewriteJny (ph a!"G") (ph a!"Y")
def JNY_TO_NY : List Rel := rewriteJny (ph a!"SIL") (ph a!"NY")
def JNY_TO_DNY : List Rel := rewriteJny (ph a!"DI") (ph a!"NY")
def JNY_TO_GG : List Rel := rewriteJny (ph a!"G") (ph a!"G")

/-- g2p.py:213 `YY_Y`. -/
def YY_Y : List Rel := [delete (ph a!"ASP") (some (gr a!"YY"))]
/-- g2p.py:214-217 `OOYY_V`. -/
def OOYY_V : List Rel :=
  [merge (gr a!"OO_I") (phL a!"O") (gr a!"YY") (ph a!"Y") (ph a!"VU"),
   reassign (gr a!"A") (ph a!"OH") (ph a!"SIL") none (some (cat (gr a!"OO_I") (gr a!"YY")))]
/-- g2p.py:219 `PH_F`. -/
def PH_F : List Rel := [reassign (gr a!"PH") (cat (ph a!"P") (ph a!"ASP")) (ph a!"F")]
/-- g2p.py:220 `BH_V`. -/
def BH_V : List Rel :=
  [reassign (gr a!"BH") (cat (ph a!"B") (ph a!"ASP")) (ph a!"VU") (some Psa.lALL)]
/-- g2p.py:221 `B_V`. -/
def B_V : List Rel := [reassign (gr a!"B") (ph a!"B") (ph a!"VU") (some Psa.lCONSONANT)]
/-- g2p.py:225-227 `PHPH_TO_FF`. -/
def PHPH_TO_FF : List Rel :=
  [reassignAdjacent (gr a!"PH") (cat (ph a!"P") (ph a!"ASP")) (ph a!"F")
    (gr a!"PH") (cat (ph a!"P") (ph a!"ASP")) (ph a!"F")]
/-- g2p.py:228 `REMOVE_ASP_FROM_GEMINATE`. -/
def REMOVE_ASP_FROM_GEMINATE : List Rel := [delete (ph a!"ASP") none (some (cat Psa.lALL (ph a!"ASP")))]
/-- g2p.py:230 `RT_TO_R`. -/
def RT_TO_R : List Rel := [rewrite (ph a!"RT") (ph a!"R")]
/-- g2p.py:232 `RR_TT`. -/
def RR_TT : List Rel := [mergeRepeated (gr a!"RR") (ph a!"R") (cat (ph a!"T") (ph a!"T"))]
/-- g2p.py:233 `NR_NDR`. -/
def NR_NDR : List Rel :=
  [merge (gr a!"NA") (ph a!"N") (gr a!"RR") (ph a!"R") (cat (ph a!"N") (cat (ph a!"D") (ph a!"R")))]
/-- g2p.py:234-235 `WF_VIRAMA_U`. -/
def WF_VIRAMA_U : List Rel :=
  [rewriteWordFinal (str []) (align (gr a!"U") (ph a!"U"))
    (some (align Brh.lSCH_CONS (Star Psa.lALL)))]
/-- g2p.py:237-239 `H_ASP`. -/
def H_ASP : List Rel :=
  [reassign (gr a!"H") (ph a!"H") (ph a!"ASP")
    (some (oneOf [ph a!"M", ph a!"NI", ph a!"VU", ph a!"L", ph a!"R"]))]
/-- g2p.py:241-243 `ADDAK`. -/
def ADDAK : List Rel :=
  [rewriteLs (Brh.ONSET_CONSONANT.map (fun c => (str c.ph, str (c.ph ++ c.ph)))) (some (ph a!"SIL"))]
/-- g2p.py:245 `AUM_AON`. -/
def AUM_AON : List Rel :=
  [reassign (gr a!"U_I") (ph a!"U") (ph a!"O") none (some (cat (gr a!"ANS") (cat SKIP EOW)))]
/-- g2p.py:246-250 `OAM_AON`. -/
def OAM_AON : List Rel :=
  [merge (gr a!"OO") (phL a!"O") (gr a!"AA_I") (phL a!"A") (cat (ph a!"EC") (ph a!"O")) none
    (some (cat (gr a!"ANS") (cat SKIP EOW)))]
/-- g2p.py:251-254 `ANSVA_AON`. -/
def ANSVA_AON : List Rel :=
  [merge (gr a!"ANS") (ph a!"NSL") (gr a!"V") (ph a!"VU") (cat (ph a!"O") (ph a!"NSL")) none
    (some (cat (gr a!"A") (cat SKIP EOW)))]

end G2p

/-! ## brahmic/romanizer.py -/
namespace Rom

/-- `tr.X + tr.Y`. -/
def tr2 (a b : Str) : Lang := cat (tr a) (tr b)

/-- romanizer.py:33-36 `SIBV_TO_SIBW`. -/
def SIBV_TO_SIBW : List Rel := [rewrite (ph a!"VU") (tr a!"W") (some Psa.lSIBILANT)]
/-- romanizer.py:40-43 `NON_LABIAL_ANUSVARA`. -/
def NON_LABIAL_ANUSVARA : List Rel :=
  [reassign (gr a!"ANS") (oneOf [ph a!"NG", ph a!"NY"]) (tr a!"N")]
/-- romanizer.py:45 `NYJ_NJ`. -/
def NYJ_NJ : List Rel := [rewrite (ph a!"NY") (tr a!"N") none (some (ph a!"D_ZH"))]
/-- romanizer.py:47-50 `GAAV_GAON`. -/
def GAAV_GAON : List Rel :=
  [merge (gr a!"AA") (phL a!"A") (gr a!"V") (ph a!"VU") (cat (tr a!"A") (tr2 a!"O" a!"N"))
    (some (gr a!"G"))]
/-- romanizer.py:51-53 `OO_AO_BEFORE_ANUSVARA`. -/
def OO_AO_BEFORE_ANUSVARA : List Rel :=
  [reassign (gr a!"OO") (phL a!"O") (tr2 a!"A" a!"O") none (some (gr a!"ANS"))]
/-- romanizer.py:55 `AE_A`. -/
def AE_A : List Rel := [rewrite (ph a!"AE") (tr a!"A")]
/-- romanizer.py:56 `OH_A`. -/
def OH_A : List Rel := [reassign (gr a!"A") (ph a!"OH") (tr a!"A")]
/-- romanizer.py:58-62 `AA_AO_CND`. -/
def AA_AO_CND : List Rel :=
  [reassign (gr a!"AA") (phL a!"A") (tr2 a!"A" a!"O") none
    (some (cat (gr a!"CND") (cat (ques (cat SKIP (gr a!"OO"))) (cat SKIP EOW))))]
/-- romanizer.py:63-65 `WF_CND_OO`. -/
def WF_CND_OO : List Rel :=
  [reassignWordFinal (gr a!"OO") (phL a!"O") (tr a!"DEL") (some (gr a!"CND"))]
/-- romanizer.py:67 `OOYY_W`. -/
def OOYY_W : List Rel := [reassign (cat (gr a!"OO_I") (gr a!"YY")) (ph a!"VU") (tr a!"W")]
/-- romanizer.py:68 `IYY_I`. -/
def IYY_I : List Rel :=
  [reassign (gr a!"YY") (ph a!"Y") (tr a!"DEL")
    (some (cat (alt (ph a!"I") (ph a!"U")) (ques (ph a!"DURH"))))]
/-- romanizer.py:71-79 `_transliterate_vocalic` and romanizer.py:81 `VOCALIC_TR_I`. -/
def VOCALIC_TR_I : List Rel :=
  [rewrite (phL a!"SYL") (tr a!"S_II") (some Brh.lVOCALIC),
   rewrite (alt Psa.lVOWEL (ph a!"SYL")) (tr a!"I") (some Brh.lVOCALIC)]
/-- romanizer.py:84-87 `AA_WI`. -/
def AA_WI : List Rel := [reassignWordInitial (gr a!"AA_I") (phL a!"A") (tr a!"S_AA")]
/-- romanizer.py:89-93 `EN_LIKE_LONG`. -/
def EN_LIKE_LONG : List Rel :=
  [rewrite (phL a!"I") (tr2 a!"E" a!"E"), rewrite (phL a!"U") (tr2 a!"O" a!"O")]
/-- romanizer.py:95 `EE_AE`. -/
def EE_AE : List Rel := [reassign (gr a!"EE") (phL a!"E") (tr2 a!"A" a!"E")]
/-- romanizer.py:97-101 `OO_OA`, the second definition.  The context `''` of its second rule is not
the object `al.EPSILON`. -/
def OO_OA : List Rel :=
  [reassign (gr a!"OO") (phL a!"O") (tr2 a!"O" a!"A") (some Psa.lAPPROXIMANT),
   reassign (gr a!"OO") (phL a!"O") (tr2 a!"O" a!"A") (some (str [])) (some Psa.lAPPROXIMANT)]
/-- romanizer.py:103-107 `TI_TH`. -/
def TI_TH : List Rel :=
  [mergeRepeated (gr a!"T") (ph a!"TI") (tr2 a!"T" a!"H"),
   reassign (gr a!"T") (ph a!"TI") (tr2 a!"T" a!"H"),
   reassign (gr a!"T") (ph a!"DI") (tr2 a!"T" a!"H")]
/-- romanizer.py:109 `TT_TR`. -/
def TT_TR : List Rel :=
  [reassign (cat (gr a!"RR") (gr a!"RR")) (cat (ph a!"T") (ph a!"T")) (cat (tr a!"T") (tr2 a!"T" a!"R"))]
/-- romanizer.py:110 `RD_R`. -/
def RD_R : List Rel := [reassign (gr a!"RD") (ph a!"RD") (tr a!"R")]
/-- romanizer.py:111 `RDH_DH`. -/
def RDH_DH : List Rel := [reassign (gr a!"RDH") (cat (ph a!"RD") (ph a!"ASP")) (tr2 a!"D" a!"H")]
/-- romanizer.py:112 `RDH_RH`. -/
def RDH_RH : List Rel := [reassign (gr a!"RDH") (cat (ph a!"RD") (ph a!"ASP")) (tr2 a!"R" a!"H")]
/-- romanizer.py:114 `NY_N`. -/
def NY_N : List Rel := [rewrite (ph a!"NY") (tr a!"N") none (some Psa.lCONSONANT)]
/-- romanizer.py:115 `NY_GN`. -/
def NY_GN : List Rel :=
  [reassign (gr a!"NY") (ph a!"NY") (tr2 a!"G" a!"N") (some Psa.lVOWEL) (some Psa.lVOWEL)]
/-- romanizer.py:119-125 `DIPHTHONG_GR`. -/
def DIPHTHONG_GR : List Rel :=
  [reassign (gr a!"AI") (phL a!"EH") (tr a!"S_AI"),
   reassign (gr a!"AU") (phL a!"OH") (tr a!"S_AU"),
   reassign (gr a!"AI_I") (phL a!"EH") (tr a!"S_AI"),
   reassign (gr a!"AU_I") (phL a!"OH") (tr a!"S_AU")]
/-- romanizer.py:129-135 `TRANSLIT_LONG`. -/
def TRANSLIT_LONG : List Rel :=
  Psa.PHONEMES.map (fun p =>
    rewrite (str (p.ph ++ Psa.ph a!"DURH")) (str (Ltn.doubleSubstringTr p.psa)))
/-- romanizer.py:137 `IGNORE_LONG`. -/
def IGNORE_LONG : List Rel := [delete (ph a!"DURH")]
/-- romanizer.py:143 `CC_TO_CCH`. -/
def CC_TO_CCH : List Rel := [mergeRepeated (gr a!"C") (tr a!"S_CH") (tr2 a!"C" a!"S_CH")]
/-- romanizer.py:146-149 `CCH_TO_CHH`. -/
def CCH_TO_CHH : List Rel :=
  [merge (gr a!"C") (tr a!"S_CH") (gr a!"CH") (tr2 a!"S_CH" a!"H") (tr2 a!"S_CH" a!"H")]
/-- romanizer.py:152-156 `S_SHSH_TO_SSH`. -/
def S_SHSH_TO_SSH : List Rel :=
  [mergeRepeated (gr a!"SS") (tr a!"S_SH") (tr2 a!"S" a!"S_SH"),
   mergeRepeated (gr a!"SH") (tr a!"S_SH") (tr2 a!"S" a!"S_SH")]
/-- romanizer.py:158 `TRANSLIT_BY_PSA` and phonology/phon.py:204-207 `ls_translit_by_key`. -/
def TRANSLIT_BY_PSA : List Rel :=
  [rewriteLs (Psa.PHONEMES.map (fun p => (str p.ph, str p.psa)))]
/-- romanizer.py:162 `TXN_TO_PSA_COMMON`. -/
def TXN_TO_PSA_COMMON : List Rel := DIPHTHONG_GR ++ NON_LABIAL_ANUSVARA ++ RDH_DH
/-- romanizer.py:165-170 `TXN_TO_PSAF`. -/
def TXN_TO_PSAF (m : Mode) : List Rel :=
  TXN_TO_PSA_COMMON ++ TRANSLIT_LONG ++ TRANSLIT_BY_PSA ++ printOnlyLtn m
/-- romanizer.py:174-176 `REMOVE_REPEATED_LTN`. -/
def REMOVE_REPEATED_LTN : List Rel :=
  [removeRepeatedGlyph Ltn.OTHER_SUBSTRING, removeRepeatedGlyph Ltn.ASCII_LC]
/-- romanizer.py:179-184 `TXN_TO_PSAC`. -/
def TXN_TO_PSAC (m : Mode) : List Rel :=
  TXN_TO_PSA_COMMON ++ IGNORE_LONG ++ TRANSLIT_BY_PSA ++ printOnlyLtn m ++ REMOVE_REPEATED_LTN

end Rom

/-! ## language_params

For every language `txn` is the list of rules applied to the default pronunciation, and `psaf`,
`psac`, `ipa`, `nat` are the lists of transducers returned by the functions `iso_to_psaf`,
`iso_to_psac`, `iso_to_ipa` and `iso_to_nat`.  `iso_to_nat` of Hindi, which reads acronyms, is
in `Model/Acronym.lean`. -/

/-- Onset clusters of bn.py:27-32, gu.py:28-33, hi.py:50-55, mr.py:28-33 and pa.py:28-33. -/
def onsetCl : Lang :=
  oneOf [concatR (ph a!"K") (ph a!"SH"),
    concatR (ph a!"S") (oneOf [ph a!"T", ph a!"RT", ph a!"NI", ph a!"Y", ph a!"VU"]),
    concatR (alt (ph a!"VU") (ph a!"NI")) (ph a!"Y"),
    concatR (oneOf [ph a!"K", ph a!"P", ph a!"G", ph a!"DI", ph a!"SH"]) (ph a!"RT")]

/-- Coda clusters of bn.py:35-42, gu.py:36-43, hi.py:58-65, mr.py:36-43 and pa.py:36-43.  The
argument is the second part of the first line, which differs in Bengali. -/
def codaCl (last : Lang) : Lang :=
  oneOf [concatR Psa.lCONSONANT last,
    concatR Psa.lVOICED Psa.lNASAL,
    concatR (minus Psa.lFRICATIVE (ph a!"H")) (minus Psa.lNASAL (ph a!"M")),
    concatR Psa.lSIBILANT (ph a!"M"),
    concatR (alt Psa.lLIQUID Psa.lNASAL) Psa.lNASAL,
    concatR Psa.lRHOTIC Psa.lRHOTIC]

/-- gu.py:45, hi.py:67, mr.py:45, pa.py:45 `_PROCESS_SCHWA`. -/
def PROCESS_SCHWA : List Rel := G2p.processSchwa onsetCl (codaCl Psa.lSTOP)

open G2p Rom

namespace Te
/-- language_params/te.py:24-58. -/
def txn : List Rel :=
  VOCALIC_U ++ SCHWA_A ++ ANUSVARA_ASSIMILATION ++ DEFAULT_ANUSVARA_LABIAL ++ JNY_TO_GNY
/-- te.py:36 `iso_to_psaf`. -/
def psaf (m : Mode) : List Rel := isoToTxn m ++ txn ++ TXN_TO_PSAF m
/-- te.py:41 `iso_to_psac`. -/
def psac (m : Mode) : List Rel := isoToTxn m ++ txn ++ TXN_TO_PSAC m
/-- te.py:56 `iso_to_ipa`. -/
def ipa (m : Mode) : List Rel := isoToTxn m ++ txn ++ txnToIpa m
/-- te.py:46 `iso_to_nat`. -/
def nat (m : Mode) : List Rel :=
  isoToTxn m ++ txn ++ TXN_TO_PSA_COMMON ++ TRANSLIT_BY_PSA ++ printOnlyLtn m
end Te

namespace Kn
/-- language_params/kn.py:24-59. -/
def txn : List Rel :=
  RT_TO_R ++ VOCALIC_U ++ SCHWA_A ++ ANUSVARA_ASSIMILATION ++ DEFAULT_ANUSVARA_LABIAL ++ JNY_TO_GNY
/-- kn.py:37 `iso_to_psaf`. -/
def psaf (m : Mode) : List Rel := isoToTxn m ++ txn ++ TXN_TO_PSAF m
/-- kn.py:42 `iso_to_psac`. -/
def psac (m : Mode) : List Rel := isoToTxn m ++ txn ++ TXN_TO_PSAC m
/-- kn.py:57 `iso_to_ipa`. -/
def ipa (m : Mode) : List Rel := isoToTxn m ++ txn ++ txnToIpa m
/-- kn.py:47 `iso_to_nat`. -/
def nat (m : Mode) : List Rel :=
  isoToTxn m ++ txn ++ TXN_TO_PSA_COMMON ++ TRANSLIT_BY_PSA ++ printOnlyLtn m
end Kn

namespace Hi
/-- language_params/hi.py:70-102. -/
def txn : List Rel :=
  AI_TO_EH_LONG ++ AU_TO_OH_LONG ++ A_TO_EC ++ VOCALIC_I ++ ANUSVARA_ASSIMILATION ++
    PROCESS_SCHWA ++ SCHWA_EC ++ DEFAULT_ANUSVARA_DENTAL ++ FINAL_ANUSVARA_NASALIZATION ++
    JNY_TO_GY ++ PHPH_TO_FF
/-- hi.py:90 `iso_to_psaf`. -/
def psaf (m : Mode) : List Rel := isoToTxn m ++ txn ++ TXN_TO_PSAF m
/-- hi.py:95 `iso_to_psac`. -/
def psac (m : Mode) : List Rel := isoToTxn m ++ txn ++ TXN_TO_PSAC m
/-- hi.py:100 `iso_to_ipa`. -/
def ipa (m : Mode) : List Rel := isoToTxn m ++ txn ++ txnToIpa m
end Hi

/-- gu.py:59-69 and mr.py:62-72 `_NAT_OPS` with the final printing. -/
def gaonNat (m : Mode) : List Rel :=
  SIBV_TO_SIBW ++ OO_AO_BEFORE_ANUSVARA ++ GAAV_GAON ++ TXN_TO_PSA_COMMON ++ IGNORE_LONG ++
    TRANSLIT_BY_PSA ++ CC_TO_CCH ++ CCH_TO_CHH ++ S_SHSH_TO_SSH ++ printOnlyLtn m

namespace Mr
/-- language_params/mr.py:48-102. -/
def txn : List Rel :=
  AI_TO_EH_LONG ++ AU_TO_OH_LONG ++ A_TO_EC ++ VOCALIC_U ++ H_ASP ++ ANUSVARA_ASSIMILATION ++
    PROCESS_SCHWA ++ SCHWA_EC ++ DEFAULT_ANUSVARA_DENTAL ++ JNY_TO_DNY ++ PH_F
/-- mr.py:80 `iso_to_psaf`. -/
def psaf (m : Mode) : List Rel := isoToTxn m ++ txn ++ TXN_TO_PSAF m
/-- mr.py:85 `iso_to_psac`. -/
def psac (m : Mode) : List Rel := isoToTxn m ++ txn ++ TXN_TO_PSAC m
/-- mr.py:90 `iso_to_ipa`. -/
def ipa (m : Mode) : List Rel := isoToTxn m ++ txn ++ txnToIpa m
/-- mr.py:95 `iso_to_nat`. -/
def nat (m : Mode) : List Rel := isoToTxn m ++ txn ++ gaonNat m
end Mr

namespace Gu
/-- language_params/gu.py:48-99. -/
def txn : List Rel :=
  A_TO_EC ++ VOCALIC_U ++ ANUSVARA_ASSIMILATION ++ PROCESS_SCHWA ++ SCHWA_EC ++
    DEFAULT_ANUSVARA_DENTAL ++ JNY_TO_DNY ++ PH_F
/-- gu.py:77 `iso_to_psaf`. -/
def psaf (m : Mode) : List Rel := isoToTxn m ++ txn ++ TXN_TO_PSAF m
/-- gu.py:82 `iso_to_psac`. -/
def psac (m : Mode) : List Rel := isoToTxn m ++ txn ++ TXN_TO_PSAC m
/-- gu.py:87 `iso_to_ipa`. -/
def ipa (m : Mode) : List Rel := isoToTxn m ++ txn ++ txnToIpa m
/-- gu.py:92 `iso_to_nat`. -/
def nat (m : Mode) : List Rel := isoToTxn m ++ txn ++ gaonNat m
end Gu

namespace Pa
/-- language_params/pa.py:48-104. -/
def txn : List Rel :=
  ADDAK ++ AI_TO_EH_LONG ++ AU_TO_OH_LONG ++ A_TO_EC ++ VOCALIC_I ++ ANUSVARA_ASSIMILATION ++
    TIPPI_ASSIMILATION ++ AUM_AON ++ OAM_AON ++ ANSVA_AON ++ PROCESS_SCHWA ++ SCHWA_EC ++ PH_F ++
    REMOVE_ASP_FROM_GEMINATE
/-- pa.py:82 `iso_to_psaf`. -/
def psaf (m : Mode) : List Rel := isoToTxn m ++ txn ++ TXN_TO_PSAF m
/-- pa.py:87 `iso_to_psac`. -/
def psac (m : Mode) : List Rel := isoToTxn m ++ txn ++ TXN_TO_PSAC m
/-- pa.py:92 `iso_to_ipa`. -/
def ipa (m : Mode) : List Rel := isoToTxn m ++ txn ++ txnToIpa m
/-- pa.py:97 `iso_to_nat`. -/
def nat (m : Mode) : List Rel :=
  isoToTxn m ++ txn ++ RD_R ++ SIBV_TO_SIBW ++ TXN_TO_PSA_COMMON ++ IGNORE_LONG ++
    TRANSLIT_BY_PSA ++ CC_TO_CCH ++ CCH_TO_CHH ++ S_SHSH_TO_SSH ++ printOnlyLtn m
end Pa

namespace Bn
/-- language_params/bn.py:44-122. -/
def txn : List Rel :=
  A_AE ++ VOCALIC_I ++ processSchwa onsetCl (codaCl (alt Psa.lSTOP Psa.lAFFRICATE)) ++ SCHWA_OH ++
    DEFAULT_ANUSVARA_VELAR ++ JNY_TO_GG ++ YY_Y ++ OOYY_V ++ BH_V ++ B_V ++ PH_F
/-- bn.py:61 `_PSA_OPS`. -/
def psaOps : List Rel := AE_A ++ OH_A ++ RD_R
/-- bn.py:92 `iso_to_psaf`. -/
def psaf (m : Mode) : List Rel :=
  isoToTxn m ++ txn ++ psaOps ++ TRANSLIT_LONG ++ TRANSLIT_BY_PSA ++ printOnlyLtn m
/-- bn.py:103 `iso_to_psac`. -/
def psac (m : Mode) : List Rel :=
  isoToTxn m ++ txn ++ psaOps ++ IGNORE_LONG ++ TRANSLIT_BY_PSA ++ printOnlyLtn m ++
    REMOVE_REPEATED_LTN
/-- bn.py:87 `iso_to_ipa`. -/
def ipa (m : Mode) : List Rel := isoToTxn m ++ txn ++ txnToIpa m
/-- bn.py:115 `iso_to_nat`. -/
def nat (m : Mode) : List Rel :=
  isoToTxn m ++ txn ++ psaOps ++ SIBV_TO_SIBW ++ NYJ_NJ ++ AA_AO_CND ++ WF_CND_OO ++ OOYY_W ++
    IYY_I ++ IGNORE_LONG ++ TRANSLIT_BY_PSA ++ CC_TO_CCH ++ CCH_TO_CHH ++ S_SHSH_TO_SSH ++
    printOnlyLtn m
end Bn

namespace Ml
/-- language_params/ml.py:28-95. -/
def voicingCtx : Lang := oneOf [Psa.lVOWEL, Psa.lAPPROXIMANT, Psa.lNASAL]
/-- ml.py:37 `_VOICING`. -/
def VOICING : List Rel :=
  [voicing [K_G, P_B, T_D, TI_DI, TT_DD, TSH_DZH] (some voicingCtx)
    (some (concatR (ques (ph a!"ASP")) voicingCtx))]
/-- ml.py:40 `_POSTNASAL_TT`. -/
def POSTNASAL_TT : List Rel := [voicing [TT_DD] (some Psa.lNASAL)]
/-- ml.py:42 `_TXN_OPS`. -/
def txn : List Rel :=
  WF_VIRAMA_U ++ VOCALIC_EC ++ SCHWA_A ++ ANUSVARA_ASSIMILATION ++ DEFAULT_ANUSVARA_LABIAL ++
    RR_TT ++ VOICING ++ POSTNASAL_TT ++ JNY_TO_NY
/-- ml.py:54 `_NAT_OPS`. -/
def natOps : List Rel :=
  EN_LIKE_LONG ++ TI_TH ++ CC_TO_CCH ++ CCH_TO_CHH ++ S_SHSH_TO_SSH ++ SIBV_TO_SIBW ++ NY_N ++ NY_GN
/-- ml.py:66 `iso_to_psaf`. -/
def psaf (m : Mode) : List Rel := isoToTxn m ++ txn ++ VOCALIC_TR_I ++ TXN_TO_PSAF m
/-- ml.py:76 `iso_to_psac`. -/
def psac (m : Mode) : List Rel := isoToTxn m ++ txn ++ TXN_TO_PSAC m
/-- ml.py:93 `iso_to_ipa`. -/
def ipa (m : Mode) : List Rel := isoToTxn m ++ txn ++ txnToIpa m
/-- ml.py:81 `iso_to_nat`. -/
def nat (m : Mode) : List Rel :=
  isoToTxn m ++ txn ++ natOps ++ TXN_TO_PSA_COMMON ++ TRANSLIT_BY_PSA ++ printOnlyLtn m
end Ml

namespace Ta
/-- language_params/ta.py:47-131. -/
def voicingCtx : Lang := oneOf [Psa.lVOWEL, Psa.lAPPROXIMANT, Psa.lNASAL, Psa.lRHOTIC]
/-- ta.py:58 `_VOICING`. -/
def VOICING : List Rel :=
  [voicing [K_G, P_B, T_D, TI_DI, TT_DD, TSH_S] (some voicingCtx) (some voicingCtx)]
/-- ta.py:63 `_C_WI`. -/
def C_WI : List Rel := [voicing [TSH_S] (some (str [bos])) (some voicingCtx)]
/-- ta.py:68 `_NY_TSH`. -/
def NY_TSH : List Rel := [voicing [TSH_DZH] (some (ph a!"NY")) (some voicingCtx)]
/-- ta.py:74 `_TXN_OPS`. -/
def txn : List Rel :=
  VOCALIC_EC ++ SCHWA_A ++ ANUSVARA_ASSIMILATION ++ DEFAULT_ANUSVARA_LABIAL ++ RR_TT ++ NR_NDR ++
    NY_TSH ++ VOICING ++ C_WI ++ JNY_TO_NY
/-- ta.py:87 `_NAT_OPS`. -/
def natOps : List Rel :=
  EN_LIKE_LONG ++ EE_AE ++ OO_OA ++ TI_TH ++ TT_TR ++ CC_TO_CCH ++ CCH_TO_CHH ++ S_SHSH_TO_SSH ++
    SIBV_TO_SIBW ++ NY_N ++ NY_GN
/-- ta.py:102 `iso_to_psaf`. -/
def psaf (m : Mode) : List Rel := isoToTxn m ++ txn ++ VOCALIC_TR_I ++ TXN_TO_PSAF m
/-- ta.py:112 `iso_to_psac`. -/
def psac (m : Mode) : List Rel := isoToTxn m ++ txn ++ TXN_TO_PSAC m
/-- ta.py:129 `iso_to_ipa`. -/
def ipa (m : Mode) : List Rel := isoToTxn m ++ txn ++ txnToIpa m
/-- ta.py:117 `iso_to_nat`. -/
def nat (m : Mode) : List Rel :=
  isoToTxn m ++ txn ++ natOps ++ TXN_TO_PSA_COMMON ++ TRANSLIT_BY_PSA ++ printOnlyLtn m
end Ta

end Nisaba.NT
