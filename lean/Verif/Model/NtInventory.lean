import Verif.Data.NtTables
import Verif.Model.Utf8
/-!
# Model of the inventories of nisaba/scripts/natural_translit

`script/char.py`, `latin/ltn_inventory.py`, `phonology/phon.py`, `phonology/modify_phon.py`,
`phonology/phoneme_inventory.py`, `brahmic/phoneme_inventory.py` and `brahmic/grapheme_inventory.py`.
The tables are copied by tools/gen_nt.py; what the code derives from them is computed here.
Fields that are acceptors of one string (`gr`, `tr`, `ph`, `cmp`) are that string.
-/
namespace Nisaba.NT

/-- `str.upper` on the ASCII strings it is applied to. -/
def upper (s : Str) : Str := s.map (fun c => if 97 ≤ c ∧ c ≤ 122 then c - 32 else c)

/-! ## Characters: script/char.py -/

/-- script/char.py:25-72 `Char`. -/
structure Chr where
  alias : Str
  typ : Str
  glyph : Str
  ph : Str
  cmp : Str

/-- char.py:68 `Char.gr`. -/
def Chr.gr (c : Chr) : Str := encloseGrapheme c.typ
/-- char.py:69 `Char.tr`. -/
def Chr.tr (c : Chr) : Str := encloseTranslit c.typ

/-- char.py:28-72 `Char.__init__` with the default alias. -/
def mkChr (typ glyph ph : Str) (cmp : Str := []) : Chr := ⟨upper typ, typ, glyph, ph, cmp⟩

/-- char.py:75-80 `uppercase_list`. -/
def uppercaseList (cs : List Chr) : List Chr :=
  cs.map (fun c => mkChr (upper c.typ ++ a!"_uc") (upper c.glyph) c.ph)

/-- char.py:84-86 `make_substring`. -/
def makeSubstring (s : Str) : Chr := mkChr (a!"s_" ++ s) s []

/-- char.py:89-91 `double_substring`. -/
def doubleSubstring (c : Chr) : Chr := mkChr (a!"s_" ++ c.typ ++ c.typ) (c.glyph ++ c.glyph) []

/-- char.py:133-162 `make_composite_char`. -/
def makeComposite (cs : List Chr) (typ ph : Str) : Chr :=
  mkChr typ (cs.flatMap Chr.glyph) ph (cs.flatMap Chr.gr)

/-- utils/inventory.py:73-82 `add_item`: the attribute of an inventory named after an alias is the
first item of that alias.  The default stands for an attribute error; it is not reached
(`Nisaba.Props.refs_defined`). -/
def byAlias (cs : List Chr) (a : Str) : Chr :=
  (cs.find? (fun c => seq c.alias a)).getD ⟨[], [], [], [], []⟩

/-! ## latin/ltn_inventory.py -/
namespace Ltn

/-- ltn_inventory.py:29-30 `make_ascii_char`. -/
def makeAscii (c : Nat) : Chr := mkChr [c] [c] []
/-- ltn_inventory.py:33-35. -/
def ASCII_VOWEL : List Chr := (a!"aeiou").map makeAscii
/-- ltn_inventory.py:37-41. -/
def ASCII_CONS : List Chr := (a!"bcdfghjklmnpqrstvwxyz").map makeAscii
/-- ltn_inventory.py:43. -/
def ASCII_LC : List Chr := ASCII_VOWEL ++ ASCII_CONS
/-- ltn_inventory.py:44. -/
def ASCII_UC : List Chr := uppercaseList ASCII_LC
/-- ltn_inventory.py:46 and char.py:94-130 `ls_double_substring`. -/
def DOUBLE_SUBSTRING : List Chr := ASCII_LC.map doubleSubstring
/-- ltn_inventory.py:52-55. -/
def OTHER_SUBSTRING : List Chr :=
  [a!"ae", a!"ai", a!"au", a!"ch", a!"dh", a!"kh", a!"ng", a!"ny", a!"rd", a!"sh", a!"th",
   a!"zh"].map makeSubstring
/-- ltn_inventory.py:57. -/
def SUBSTRING : List Chr := DOUBLE_SUBSTRING ++ OTHER_SUBSTRING
/-- ltn_inventory.py:59. -/
def DEL : List Chr := [mkChr a!"DEL" [] []]
/-- ltn_inventory.py:66. -/
def CHARS : List Chr := ASCII_LC ++ ASCII_UC ++ SUBSTRING ++ DEL
/-- ltn_inventory.py:68, an attribute of `TRANSLIT_INVENTORY`. -/
def tr (a : Str) : Str := (byAlias CHARS a).tr
/-- ltn_inventory.py:49-50 `double_substring_tr`: the dictionary `DOUBLE_DICT` maps the `tr` of a
lowercase letter to the `tr` of the doubled letter. -/
def doubleSubstringTr (t : Str) : Str :=
  match ASCII_LC.find? (fun c => seq c.tr t) with
  | some c => (doubleSubstring c).tr
  | none => t

end Ltn

/-! ## Phonemes: phonology/phon.py, phonology/modify_phon.py -/

/-- phonology/phon.py:29-51 `Phon`.  Of the features only membership in the class `affricate` or
`diphthong` is kept; `special` is the entry of `tr_dict` under that class, and `psa` the entry under
'psa'. -/
structure Phn where
  alias : Str
  txn : Str
  ph : Str
  ipa : Str
  base : Str
  special : Option Str := none
  psa : Str := []

/-- phon.py:53-93 `Phon.base` and phon.py:99-108 `new_tr`: without translit it is `DEL`. -/
def phonBase (txn ipa : Str) (tr : Option Str) (alias : Str) : Phn :=
  { alias := if alias.isEmpty then upper txn else alias
    txn := txn
    ph := enclosePhoneme txn
    ipa := ipa
    base := tr.getD (encloseTranslit a!"DEL") }

/-- phoneme_inventory.py, `p.Phon.base(*args)` on a row. -/
def ofRow (r : Data.PhonRow) : Phn :=
  phonBase r.1 r.2.1 (some (r.2.2.1.flatMap Ltn.tr)) r.2.2.2

/-- modify_phon.py:27-28 `modifier_phon`. -/
def modifierPhon (alias txn ipa : Str) : Phn := phonBase txn ipa none alias

/-- modify_phon.py:31-38 `qualified_modifier`. -/
def qualified (m q : Phn) (ipa : Str) : Phn := modifierPhon (m.alias ++ upper q.txn) (m.txn ++ q.txn) ipa

/-- modify_phon.py:83-126 `derive_with_suffix`, without the entry added to `tr_dict`. -/
def deriveWithSuffix (p m : Phn) : Phn :=
  { alias := p.alias ++ upper m.txn
    txn := p.txn ++ m.txn
    ph := enclosePhoneme (p.txn ++ m.txn)
    ipa := p.ipa ++ m.ipa
    base := p.base }

namespace Mod
/-- modify_phon.py:40. -/
def CMB : Phn := modifierPhon a!"CMB" a!"+" a!"͡"
/-- modify_phon.py:42-50. -/
def DVC : Phn := modifierPhon a!"DVC" a!"o" a!"̥"
def NPL : Phn := modifierPhon a!"NPL" a!"e" a!"`"
def DUR : Phn := modifierPhon a!"DUR" a!":" a!"ː"
def STR : Phn := modifierPhon a!"STR" a!"*" []
def TPT : Phn := modifierPhon a!"TPT" a!"^" []
def TCN : Phn := modifierPhon a!"TCN" a!"&" []
def INT : Phn := modifierPhon a!"INT" a!"!" []
/-- modify_phon.py:53-62. -/
def TOP : Phn := modifierPhon a!"TOP" a!"t" []
def HGH : Phn := modifierPhon a!"HGH" a!"h" []
def MDL : Phn := modifierPhon a!"MDL" a!"m" []
def LOW : Phn := modifierPhon a!"LOW" a!"w" []
def BTM : Phn := modifierPhon a!"BTM" a!"b" []
def RSN : Phn := modifierPhon a!"RSN" a!"r" []
def FLN : Phn := modifierPhon a!"FLN" a!"f" []
def TRP : Phn := modifierPhon a!"TRP" a!"k" []
/-- modify_phon.py:66-74, the long duration. -/
def DURH : Phn := qualified DUR HGH a!"ː"
end Mod

/-- modify_phon.py:129-133 `devoiced`. -/
def devoiced (p : Phn) : Phn := deriveWithSuffix p Mod.DVC
/-- modify_phon.py:136-138 `nonpulmonic`. -/
def nonpulmonic (p : Phn) : Phn := deriveWithSuffix p Mod.NPL

/-- modify_phon.py:160-226 `compose` of two phonemes without components.  `cls` is the translit of
the class of the composite, if that class is `diphthong` or `affricate`. -/
def composePhon (p q : Phn) (cls : Option Str) : Phn :=
  { alias := p.alias ++ a!"_" ++ q.alias
    txn := p.txn ++ Mod.CMB.txn ++ q.txn
    ph := p.ph ++ Mod.CMB.ph ++ q.ph
    ipa := p.ipa ++ Mod.CMB.ipa ++ q.ipa
    base := p.base ++ q.base
    special := cls }

/-- modify_phon.py:249-259 `ls_affricate`; the second argument says which fricatives are voiceless. -/
def lsAffricate (stop : Phn) (frics : List (Phn × Bool)) (tr : Str) : List Phn :=
  frics.flatMap (fun f =>
    composePhon stop f.1 (some tr) ::
      (if f.2 then [composePhon stop (nonpulmonic f.1) (some tr)] else []))

/-- modify_phon.py:262-272 `click` and `ls_click`. -/
def lsClick (stops releases : List Phn) : List Phn :=
  stops.flatMap (fun s => releases.map (fun r => composePhon s r none))

/-- The attribute of an inventory of phonemes named after an alias. -/
def phnByAlias (ps : List Phn) (a : Str) : Phn :=
  (ps.find? (fun p => seq p.alias a)).getD ⟨[], [], [], [], [], none, []⟩

/-! ## phonology/phoneme_inventory.py -/
namespace Mul

def SILENCE : List Phn := Data.SILENCE.map ofRow
def STANDALONE_FEATURE : List Phn := Data.STANDALONE_FEATURE.map ofRow
/-- phoneme_inventory.py:135. -/
def SIMPLE_VOWEL : List Phn := (Data.UNASSIGNED_VOWEL ++ Data.BASE_VOWEL).map ofRow
def VOICED_NASAL : List Phn := Data.VOICED_NASAL.map ofRow
/-- phoneme_inventory.py:150-152. -/
def NASAL : List Phn := VOICED_NASAL ++ VOICED_NASAL.map devoiced
def VOICELESS_STOP : List Phn := Data.VOICELESS_STOP.map ofRow
def VOICED_STOP : List Phn := Data.VOICED_STOP.map ofRow
/-- phoneme_inventory.py:180-184. -/
def VOICED_IMPLOSIVE : List Phn := VOICED_STOP.map nonpulmonic
def STOP : List Phn :=
  VOICELESS_STOP ++ VOICED_STOP ++ VOICELESS_STOP.map nonpulmonic ++
    (VOICED_IMPLOSIVE ++ VOICED_IMPLOSIVE.map devoiced)
def VOICELESS_FRICATIVE : List Phn := Data.VOICELESS_FRICATIVE.map ofRow
/-- phoneme_inventory.py:241-242. -/
def FRICATIVE : List Phn :=
  VOICELESS_FRICATIVE ++ Data.VOICED_FRICATIVE.map ofRow ++ VOICELESS_FRICATIVE.map nonpulmonic
/-- phoneme_inventory.py:272. -/
def APPROXIMANT : List Phn := (Data.CENTRAL_APPROXIMANT ++ Data.LATERAL_APPROXIMANT).map ofRow
/-- phoneme_inventory.py:288-289. -/
def FLAP : List Phn := Data.VOICED_FLAP.map ofRow ++ (Data.VOICED_FLAP.map ofRow).map devoiced
/-- phoneme_inventory.py:302-303. -/
def TRILL : List Phn := Data.VOICED_TRILL.map ofRow ++ (Data.VOICED_TRILL.map ofRow).map devoiced
def CLICK_RELEASE : List Phn := Data.CLICK_RELEASE.map ofRow
/-- phoneme_inventory.py:314-316. -/
def SIMPLE_CONS : List Phn :=
  NASAL ++ STOP ++ CLICK_RELEASE ++ FRICATIVE ++ APPROXIMANT ++ FLAP ++ TRILL
/-- phoneme_inventory.py:318-319 `_S`. -/
def S (a : Str) : Phn := phnByAlias (SIMPLE_VOWEL ++ SIMPLE_CONS) a
/-- phoneme_inventory.py:321-324. -/
def DIPHTHONG : List Phn :=
  [composePhon (S a!"A") (S a!"I") (some (Ltn.tr a!"S_AI")),
   composePhon (S a!"A") (S a!"U") (some (Ltn.tr a!"S_AU"))]
/-- phoneme_inventory.py:330-332. -/
def AFFRICATE : List Phn :=
  lsAffricate (S a!"T") [(S a!"SH", true), (S a!"SS", true), (S a!"SY", true)] (Ltn.tr a!"S_CH") ++
  lsAffricate (S a!"D") [(S a!"ZH", false), (S a!"ZZ", false), (S a!"ZY", false)] (Ltn.tr a!"J")
/-- phoneme_inventory.py:334-337. -/
def CLICK : List Phn :=
  lsClick [S a!"K", S a!"G", S a!"NG", S a!"Q", S a!"J", S a!"NJ"] CLICK_RELEASE
/-- phoneme_inventory.py:339-361. -/
def SUPRASEGMENTAL : List Phn :=
  [qualified Mod.STR Mod.HGH a!"ˈ", qualified Mod.STR Mod.MDL a!"ˌ",
   qualified Mod.TPT Mod.TOP a!"̋", qualified Mod.TPT Mod.HGH a!"́", qualified Mod.TPT Mod.MDL a!"̄",
   qualified Mod.TPT Mod.LOW a!"̀", qualified Mod.TPT Mod.BTM a!"̏",
   qualified Mod.TCN Mod.RSN a!"̌", qualified Mod.TCN Mod.FLN a!"̂",
   qualified Mod.INT Mod.RSN a!"↗︎", qualified Mod.INT Mod.FLN a!"↘︎", qualified Mod.INT Mod.TRP a!"|"]
/-- phoneme_inventory.py:363-367. -/
def PHONEMES : List Phn :=
  (SILENCE ++ STANDALONE_FEATURE) ++ (SIMPLE_VOWEL ++ DIPHTHONG) ++
    (SIMPLE_CONS ++ CLICK ++ AFFRICATE) ++ SUPRASEGMENTAL
/-- phoneme_inventory.py:370, an attribute of `PHON_INVENTORY`. -/
def ph (a : Str) : Phn := phnByAlias PHONEMES a

end Mul

/-! ## brahmic/phoneme_inventory.py -/
namespace Psa

/-- brahmic/phoneme_inventory.py:30-44 `_import_to_psa`. -/
def importToPsa (p : Phn) (psa : Option Str := none) : Phn :=
  { p with psa := psa.getD (p.special.getD p.base) }

/-- Import of a phoneme of the multilingual inventory by its alias. -/
def imp (a : Str) : Phn := importToPsa (Mul.ph a)
/-- The same with a Pan South Asian translit. -/
def impTr (a t : Str) : Phn := importToPsa (Mul.ph a) (some (Ltn.tr t))

/-- brahmic/phoneme_inventory.py:46. -/
def SILENCE : List Phn := [imp a!"SIL"]
/-- brahmic/phoneme_inventory.py:48-50. -/
def VOWEL_MOD : List Phn := [imp a!"NSY", imp a!"NSL", importToPsa Mod.DURH]
/-- brahmic/phoneme_inventory.py:52. -/
def CONS_MOD : List Phn := [imp a!"ASP"]
/-- brahmic/phoneme_inventory.py:54-60. -/
def VOWEL : List Phn :=
  [imp a!"V_TNT", imp a!"V_PRN", impTr a!"SYL" a!"I", imp a!"A", impTr a!"AE" a!"S_AE",
   imp a!"E", impTr a!"EC" a!"A", imp a!"EH", imp a!"I", imp a!"O", imp a!"OH", imp a!"U",
   imp a!"A_I", imp a!"A_U"]
/-- brahmic/phoneme_inventory.py:62-64. -/
def NASAL : List Phn := [imp a!"M", imp a!"NI", imp a!"N", imp a!"NN", imp a!"NY", imp a!"NG"]
/-- brahmic/phoneme_inventory.py:66-68. -/
def VOICELESS_STOP : List Phn :=
  [imp a!"P", imp a!"TI", imp a!"T", imp a!"TT", imp a!"K", imp a!"Q"]
/-- brahmic/phoneme_inventory.py:70-72. -/
def VOICED_STOP : List Phn := [imp a!"B", imp a!"DI", imp a!"D", imp a!"DD", imp a!"G"]
/-- brahmic/phoneme_inventory.py:74-76. -/
def VOICELESS_FRICATIVE : List Phn :=
  [imp a!"F", imp a!"S", imp a!"SH", imp a!"SS", impTr a!"KH" a!"S_KH", imp a!"H"]
/-- brahmic/phoneme_inventory.py:78-80. -/
def VOICED_FRICATIVE : List Phn := [imp a!"Z", imp a!"ZH", impTr a!"GH" a!"G"]
/-- brahmic/phoneme_inventory.py:82. -/
def VOICELESS_AFFRICATE : List Phn := [imp a!"T_SH"]
/-- brahmic/phoneme_inventory.py:84. -/
def VOICED_AFFRICATE : List Phn := [imp a!"D_ZH"]
/-- brahmic/phoneme_inventory.py:86-88. -/
def APPROXIMANT : List Phn :=
  [imp a!"VU", impTr a!"RRU" a!"S_ZH", imp a!"Y", imp a!"L", imp a!"LL"]
/-- brahmic/phoneme_inventory.py:90. -/
def TAP_TRILL : List Phn := [imp a!"R", imp a!"RT", imp a!"RD"]
/-- brahmic/phoneme_inventory.py:92-97. -/
def CONSONANT : List Phn :=
  NASAL ++ VOICELESS_STOP ++ VOICED_STOP ++ VOICELESS_FRICATIVE ++ VOICED_FRICATIVE ++
    VOICELESS_AFFRICATE ++ VOICED_AFFRICATE ++ APPROXIMANT ++ TAP_TRILL
/-- brahmic/phoneme_inventory.py:99. -/
def PHONEMES : List Phn := SILENCE ++ VOWEL_MOD ++ CONS_MOD ++ VOWEL ++ CONSONANT
/-- brahmic/phoneme_inventory.py:127-130, an attribute of `PHONEME_INVENTORY`: the string `ph`. -/
def ph (a : Str) : Str := (phnByAlias PHONEMES a).ph

/-- phon.py:126-127 `ph_union`. -/
def phUnion (ps : List Phn) : Lang := fun x => ∃ p ∈ ps, x = p.ph
/-- phon.py:149-152 `thing_ph_modified`. -/
def phModified (ps ms : List Phn) : Lang := cat (phUnion ps) (Star (phUnion ms))

/-- brahmic/phoneme_inventory.py:102-116 `PH_STORE`. -/
def lNASAL : Lang := phUnion NASAL
def lFRICATIVE : Lang := phUnion (VOICELESS_FRICATIVE ++ VOICED_FRICATIVE)
def lVOICED : Lang := phUnion (VOICED_STOP ++ VOICED_FRICATIVE ++ VOICED_AFFRICATE)
def lAPPROXIMANT : Lang := phUnion APPROXIMANT
def lRHOTIC : Lang := phUnion (TAP_TRILL ++ [phnByAlias PHONEMES a!"RRU"])
def lLIQUID : Lang := phUnion (TAP_TRILL ++ [a!"RRU", a!"L", a!"LL"].map (phnByAlias PHONEMES))
def lSIBILANT : Lang :=
  phUnion ([a!"S", a!"Z", a!"SH", a!"ZH", a!"SS"].map (phnByAlias PHONEMES))
def lLABIAL : Lang := phUnion ([a!"M", a!"B", a!"P"].map (phnByAlias PHONEMES))
def lDENTAL : Lang := phUnion ([a!"NI", a!"DI", a!"TI"].map (phnByAlias PHONEMES))
def lALVEOLAR : Lang := phUnion ([a!"N", a!"D", a!"T"].map (phnByAlias PHONEMES))
def lPALATAL : Lang := phUnion ([a!"NY", a!"Y"].map (phnByAlias PHONEMES))
def lRETROFLEX : Lang := phUnion ([a!"NN", a!"DD", a!"TT"].map (phnByAlias PHONEMES))
def lVELAR : Lang := phUnion ([a!"NG", a!"G", a!"K"].map (phnByAlias PHONEMES))
/-- brahmic/phoneme_inventory.py:118-123 `PH_MOD_STORE`. -/
def lVOWEL : Lang := phModified VOWEL VOWEL_MOD
def lSTOP : Lang := phModified (VOICELESS_STOP ++ VOICED_STOP) CONS_MOD
def lAFFRICATE : Lang := phModified (VOICELESS_AFFRICATE ++ VOICED_AFFRICATE) CONS_MOD
def lCONSONANT : Lang := phModified CONSONANT CONS_MOD
/-- brahmic/phoneme_inventory.py:125 `PH_ALL_STORE`. -/
def lALL : Lang := phUnion PHONEMES

end Psa

/-! ## brahmic/grapheme_inventory.py -/
namespace Brh

/-- The string `ph` of a concatenation of attributes of `psa.PHONEME_INVENTORY`. -/
def phs (as : List Str) : Str := as.flatMap Psa.ph

/-- `c.Char(*args)` on a row. -/
def ofRow (r : Data.CharRow) : Chr := mkChr r.1 r.2.1 (phs r.2.2)

def INHERENT_VOWEL : List Chr := Data.INHERENT_VOWEL.map ofRow
def SIMPLE_VOWEL_SIGN : List Chr := Data.SIMPLE_VOWEL_SIGN.map ofRow
/-- grapheme_inventory.py:67. -/
def SIMPLE_VOWEL : List Chr := INHERENT_VOWEL ++ SIMPLE_VOWEL_SIGN
def SIMPLE_CONSONANT : List Chr := Data.SIMPLE_CONSONANT.map ofRow
def SIMPLE_CODA : List Chr := Data.SIMPLE_CODA.map ofRow
def OM_VOWEL : List Chr := Data.OM_VOWEL.map ofRow
def MODIFIER : List Chr := Data.MODIFIER.map ofRow
def VIRAMA : List Chr := Data.VIRAMA.map ofRow
def SYMBOL : List Chr := Data.SYMBOL.map ofRow
/-- grapheme_inventory.py:139-142. -/
def SINGLE_POINT : List Chr :=
  SIMPLE_VOWEL ++ SIMPLE_CONSONANT ++ SIMPLE_CODA ++ MODIFIER ++ SYMBOL ++ OM_VOWEL
/-- grapheme_inventory.py:143 `sp`. -/
def sp (a : Str) : Chr := byAlias SINGLE_POINT a

/-- `c.make_composite_char(*args)` on a row. -/
def ofComp (r : Data.CompRow) : Chr := makeComposite (r.1.map sp) r.2.1 (phs r.2.2)

def LONG_VOCALIC : List Chr := Data.LONG_VOCALIC.map ofComp
def SHORT_VOCALIC : List Chr := Data.SHORT_VOCALIC.map ofComp
/-- grapheme_inventory.py:158. -/
def VOCALIC_SIGN : List Chr := SHORT_VOCALIC ++ LONG_VOCALIC
def DIPHTHONG_SIGN : List Chr := Data.DIPHTHONG_SIGN.map ofComp
/-- grapheme_inventory.py:165. -/
def SANTAL_AAN : List Chr := [makeComposite [sp a!"AN", sp a!"LONG"] a!"aan" (phs [a!"A", a!"DURH"])]
/-- grapheme_inventory.py:167. -/
def TWO_POINT_SIGN : List Chr := SHORT_VOCALIC ++ DIPHTHONG_SIGN ++ SANTAL_AAN
/-- grapheme_inventory.py:169. -/
def VOWEL_SIGN : List Chr := SIMPLE_VOWEL ++ TWO_POINT_SIGN ++ LONG_VOCALIC
/-- grapheme_inventory.py:174-178 `_independent`. -/
def independent (sign : Chr) : Chr :=
  makeComposite [sp a!"IND", sign] (sign.typ ++ a!"_i") sign.ph
/-- grapheme_inventory.py:180-181. -/
def INDEPENDENT_NONVOCALIC : List Chr := (SIMPLE_VOWEL_SIGN ++ DIPHTHONG_SIGN).map independent
/-- grapheme_inventory.py:183. -/
def INDEPENDENT_VOCALIC : List Chr := VOCALIC_SIGN.map independent
/-- grapheme_inventory.py:186. -/
def INDEPENDENT_A : List Chr :=
  [makeComposite [sp a!"IND", sp a!"A"] ((sp a!"A").typ ++ a!"_i") (Psa.ph a!"A")]
/-- grapheme_inventory.py:188. -/
def INDEPENDENT_VOWEL : List Chr := INDEPENDENT_NONVOCALIC ++ INDEPENDENT_VOCALIC ++ INDEPENDENT_A
/-- grapheme_inventory.py:196-200 `_make_aspirated`. -/
def makeAspirated (c : Chr) : Chr :=
  makeComposite [c, sp a!"ASP"] (c.typ ++ a!"h") (c.ph ++ Psa.ph a!"ASP")
/-- grapheme_inventory.py:202-205. -/
def ASPIRATED_CONSONANT : List Chr :=
  [a!"B", a!"C", a!"D", a!"DD", a!"G", a!"J", a!"K", a!"P", a!"RD", a!"T", a!"TT"].map
    (fun a => makeAspirated (sp a))
/-- grapheme_inventory.py:207-216. -/
def DEAD_CONSONANT : List Chr :=
  [makeComposite [sp a!"K", sp a!"CHL"] a!"k_chl" (sp a!"K").ph,
   makeComposite [sp a!"L", sp a!"CHL"] a!"l_chl" (sp a!"L").ph,
   makeComposite [sp a!"LL", sp a!"CHL"] a!"ll_chl" (sp a!"LL").ph,
   makeComposite [sp a!"N", sp a!"CHL"] a!"n_chl" (Psa.ph a!"N"),
   makeComposite [sp a!"NN", sp a!"CHL"] a!"nn_chl" (sp a!"NN").ph,
   makeComposite [sp a!"RR", sp a!"CHL"] a!"rr_chl" (sp a!"RR").ph,
   makeComposite [sp a!"R", sp a!"CHL"] a!"reph" (Psa.ph a!"RT"),
   makeComposite [sp a!"R", sp a!"EYE"] a!"r_eye" (Psa.ph a!"RT")]
/-- grapheme_inventory.py:218. -/
def SCHWA_BEARING : List Chr := SIMPLE_CONSONANT ++ ASPIRATED_CONSONANT
/-- grapheme_inventory.py:222. -/
def COMPOSITE_CONSONANT : List Chr := ASPIRATED_CONSONANT ++ DEAD_CONSONANT
/-- grapheme_inventory.py:223. -/
def ONSET_CONSONANT : List Chr := SIMPLE_CONSONANT ++ COMPOSITE_CONSONANT
/-- grapheme_inventory.py:226. -/
def CND : List Chr := [makeComposite [sp a!"M", sp a!"CND_DIA"] a!"cnd" (Psa.ph a!"NSL")]
/-- grapheme_inventory.py:230. -/
def OM : List Chr := [makeComposite [sp a!"OT", sp a!"M"] a!"om" (phs [a!"O", a!"DURH", a!"M"])]
/-- grapheme_inventory.py:232. -/
def TWO_POINT : List Chr :=
  TWO_POINT_SIGN ++ INDEPENDENT_VOWEL ++ COMPOSITE_CONSONANT ++ CND ++ OM
/-- grapheme_inventory.py:234-235. -/
def CHAR : List Chr := SINGLE_POINT ++ TWO_POINT ++ LONG_VOCALIC ++ VIRAMA
/-- grapheme_inventory.py:242, an attribute of `GRAPHEME_INVENTORY`: the string `gr`. -/
def gr (a : Str) : Str := (byAlias CHAR a).gr

/-- char.py:215-216 `thing_gr_union`. -/
def grUnion (cs : List Chr) : Lang := fun x => ∃ c ∈ cs, x = c.gr
/-- grapheme_inventory.py:170, 189, 191, 219, 227: the unions stored in the inventory. -/
def lVOWEL_S : Lang := grUnion VOWEL_SIGN
def lVOWEL_I : Lang := grUnion INDEPENDENT_VOWEL
def lVOCALIC : Lang := grUnion (VOCALIC_SIGN ++ INDEPENDENT_VOCALIC)
def lSCH_CONS : Lang := grUnion SCHWA_BEARING
def lCODA : Lang := grUnion (SIMPLE_CODA ++ CND)

end Brh

/-! ## Reading and printing -/

/-- Labels of a string of code points: in the token type `utf8` the code points, in the token type
`byte` the bytes of their encoding.  The grammars are built with both. -/
inductive Mode
  | byte
  | utf8

def Mode.labels : Mode → Str → Str
  | .utf8, s => s
  | .byte, s => s.flatMap Utf8.encodeRaw

/-- char.py:254-257 `read_glyph`. -/
def readGlyph (m : Mode) (cs : List Chr) : Rel :=
  StarR (unionR (cs.map (fun c => cross (str (m.labels c.glyph)) (str c.gr))))

/-- char.py:260-263 `print_glyph`. -/
def printGlyph (m : Mode) (cs : List Chr) : Rel :=
  StarR (unionR (cs.map (fun c => cross (str c.tr) (str (m.labels c.glyph)))))

/-- char.py:266-267 `print_only_glyph`. -/
def printOnlyGlyph (m : Mode) (cs : List Chr) : List Rel := [EXTRACT_RIGHT_SIDE, printGlyph m cs]

/-- char.py:270-273 `remove_repeated_glyph`. -/
def removeRepeatedGlyph (cs : List Chr) : Rel :=
  rewriteLs (cs.map (fun c => (str (c.glyph ++ c.glyph), str c.glyph)))

/-- char.py:165-188 `compose_from_gr`. -/
def composeFromGr (cs : List Chr) : Rel := rewriteLs (cs.map (fun c => (str c.cmp, str c.gr)))

/-- ltn_inventory.py:74-75 `print_only_ltn`. -/
def printOnlyLtn (m : Mode) : List Rel := printOnlyGlyph m Ltn.CHARS

/-- phon.py:214-217 `ls_translit_ipa`. -/
def lsTranslitIpa (m : Mode) (ps : List Phn) : Rel :=
  StarR (unionR (ps.map (fun p => cross (str p.ph) (str (m.labels p.ipa)))))

/-- phonology/transcriptor.py:22-24 `txn_to_ipa` and phon.py:220-221 `print_only_ipa`. -/
def txnToIpa (m : Mode) : List Rel :=
  [EXTRACT_RIGHT_SIDE, lsTranslitIpa m (Mul.PHONEMES ++ [Mod.DURH])]

/-- brahmic/grapheme_inventory.py:247-264 `iso_to_typ_rules`. -/
def isoToTypRules (m : Mode) : List Rel :=
  [readGlyph m Brh.SINGLE_POINT,
   composeFromGr Brh.LONG_VOCALIC,
   composeFromGr Brh.TWO_POINT_SIGN,
   rewriteWordInitial (str []) (str (Brh.gr a!"IND"))
     (some (minus Brh.lVOWEL_S (str (Brh.gr a!"AAN")))),
   composeFromGr Brh.INDEPENDENT_VOWEL,
   composeFromGr Brh.COMPOSITE_CONSONANT,
   composeFromGr (Brh.OM ++ Brh.CND)]

end Nisaba.NT
