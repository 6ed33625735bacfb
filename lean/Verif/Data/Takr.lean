import Verif.Model.Tables
/-! Generated by tools/gen_tables.py from
  nisaba/scripts/brahmic/data/Takr/coda.textproto
  nisaba/scripts/brahmic/data/Takr/consonant.textproto
  nisaba/scripts/brahmic/data/Takr/preserve.textproto
  nisaba/scripts/brahmic/data/Takr/uname_prefix.textproto
  nisaba/scripts/brahmic/data/Takr/visual_rewrite.textproto
  nisaba/scripts/brahmic/data/Takr/vowel.textproto
  nisaba/scripts/brahmic/data/Takr/vowel_sign.textproto
  nisaba/scripts/brahmic/data/consonant.textproto
  nisaba/scripts/brahmic/data/inherent_vowel.textproto
  nisaba/scripts/brahmic/data/preserve.textproto
  nisaba/scripts/brahmic/data/virama.textproto
-/
namespace Nisaba.Data

def takr : BrahmicData where
  name := "Takr"
  consonant := [([nat_lit 71334], [nat_lit 118]),
    ([nat_lit 71338], [nat_lit 7775]),
    ([nat_lit 71306, nat_lit 71351], [nat_lit 113]),
    ([nat_lit 71307, nat_lit 71351], [nat_lit 120]),
    ([nat_lit 71309, nat_lit 71351], [nat_lit 7713, nat_lit 688]),
    ([nat_lit 71313, nat_lit 71351], [nat_lit 122]),
    ([nat_lit 71327, nat_lit 71351], [nat_lit 102]),
    ([nat_lit 71306], [nat_lit 107]),
    ([nat_lit 71307], [nat_lit 107, nat_lit 688]),
    ([nat_lit 71308], [nat_lit 103]),
    ([nat_lit 71309], [nat_lit 103, nat_lit 688]),
    ([nat_lit 71310], [nat_lit 7749]),
    ([nat_lit 71311], [nat_lit 99]),
    ([nat_lit 71312], [nat_lit 99, nat_lit 688]),
    ([nat_lit 71313], [nat_lit 106]),
    ([nat_lit 71314], [nat_lit 106, nat_lit 688]),
    ([nat_lit 71315], [nat_lit 241]),
    ([nat_lit 71316], [nat_lit 7789]),
    ([nat_lit 71317], [nat_lit 7789, nat_lit 688]),
    ([nat_lit 71318], [nat_lit 7693]),
    ([nat_lit 71319], [nat_lit 7693, nat_lit 688]),
    ([nat_lit 71320], [nat_lit 7751]),
    ([nat_lit 71321], [nat_lit 116]),
    ([nat_lit 71322], [nat_lit 116, nat_lit 688]),
    ([nat_lit 71323], [nat_lit 100]),
    ([nat_lit 71324], [nat_lit 100, nat_lit 688]),
    ([nat_lit 71325], [nat_lit 110]),
    ([nat_lit 71326], [nat_lit 112]),
    ([nat_lit 71327], [nat_lit 112, nat_lit 688]),
    ([nat_lit 71328], [nat_lit 98]),
    ([nat_lit 71329], [nat_lit 98, nat_lit 688]),
    ([nat_lit 71330], [nat_lit 109]),
    ([nat_lit 71331], [nat_lit 121]),
    ([nat_lit 71332], [nat_lit 114]),
    ([nat_lit 71333], [nat_lit 108]),
    ([nat_lit 71335], [nat_lit 347]),
    ([nat_lit 71336], [nat_lit 115]),
    ([nat_lit 71337], [nat_lit 104])]
  deadConsonant := []
  subjoined := []
  vowelSign := [([nat_lit 71341], [nat_lit 257]),
    ([nat_lit 71342], [nat_lit 105]),
    ([nat_lit 71343], [nat_lit 299]),
    ([nat_lit 71344], [nat_lit 117]),
    ([nat_lit 71345], [nat_lit 363]),
    ([nat_lit 71346], [nat_lit 275]),
    ([nat_lit 71347], [nat_lit 97, nat_lit 105]),
    ([nat_lit 71348], [nat_lit 333]),
    ([nat_lit 71349], [nat_lit 97, nat_lit 117])]
  vowel := [([nat_lit 71296], [nat_lit 97]),
    ([nat_lit 71297], [nat_lit 257]),
    ([nat_lit 71298], [nat_lit 105]),
    ([nat_lit 71299], [nat_lit 299]),
    ([nat_lit 71300], [nat_lit 117]),
    ([nat_lit 71301], [nat_lit 363]),
    ([nat_lit 71302], [nat_lit 275]),
    ([nat_lit 71303], [nat_lit 97, nat_lit 105]),
    ([nat_lit 71304], [nat_lit 333]),
    ([nat_lit 71305], [nat_lit 97, nat_lit 117])]
  vowelLength := []
  coda := [([nat_lit 71339], [nat_lit 7745]),
    ([nat_lit 71340], [nat_lit 7717])]
  standalone := []
  virama := [([nat_lit 71350], [nat_lit 71350])]
  inherent := [([nat_lit 97], [nat_lit 97])]
  accept := []
  preserve := [([nat_lit 8205, nat_lit 71350], [nat_lit 1114113]),
    ([nat_lit 71350, nat_lit 8204], [nat_lit 1114112])]
  nfc := []
  visualRewrite := [([nat_lit 71296, nat_lit 71341], [nat_lit 71297]),
    ([nat_lit 71302, nat_lit 71346], [nat_lit 71303]),
    ([nat_lit 71296, nat_lit 71348], [nat_lit 71304]),
    ([nat_lit 71296, nat_lit 71349], [nat_lit 71305])]
  readingNorm := []
  marks := [nat_lit 71339, nat_lit 71351, nat_lit 71341, nat_lit 71344, nat_lit 71345, nat_lit 71346, nat_lit 71347, nat_lit 71348, nat_lit 71349]
  noInherentVowel := false

end Nisaba.Data
