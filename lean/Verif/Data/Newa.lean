import Verif.Model.Tables
/-! Generated by tools/gen_tables.py from
  nisaba/scripts/brahmic/data/Newa/coda.textproto
  nisaba/scripts/brahmic/data/Newa/consonant.textproto
  nisaba/scripts/brahmic/data/Newa/uname_prefix.textproto
  nisaba/scripts/brahmic/data/Newa/visual_rewrite.textproto
  nisaba/scripts/brahmic/data/Newa/vowel.textproto
  nisaba/scripts/brahmic/data/Newa/vowel_sign.textproto
  nisaba/scripts/brahmic/data/coda.textproto
  nisaba/scripts/brahmic/data/consonant.textproto
  nisaba/scripts/brahmic/data/inherent_vowel.textproto
  nisaba/scripts/brahmic/data/preserve.textproto
  nisaba/scripts/brahmic/data/standalone.textproto
  nisaba/scripts/brahmic/data/virama.textproto
  nisaba/scripts/brahmic/data/vowel.textproto
  nisaba/scripts/brahmic/data/vowel_sign.textproto
-/
namespace Nisaba.Data

def newa : BrahmicData where
  name := "Newa"
  consonant := [([nat_lit 70675], [nat_lit 7749, nat_lit 688]),
    ([nat_lit 70681], [nat_lit 241, nat_lit 688]),
    ([nat_lit 70692], [nat_lit 110, nat_lit 688]),
    ([nat_lit 70698], [nat_lit 109, nat_lit 688]),
    ([nat_lit 70701], [nat_lit 114, nat_lit 688]),
    ([nat_lit 70703], [nat_lit 108, nat_lit 688]),
    ([nat_lit 70704], [nat_lit 119]),
    ([nat_lit 70706], [nat_lit 7779]),
    ([nat_lit 70670], [nat_lit 107]),
    ([nat_lit 70671], [nat_lit 107, nat_lit 688]),
    ([nat_lit 70672], [nat_lit 103]),
    ([nat_lit 70673], [nat_lit 103, nat_lit 688]),
    ([nat_lit 70674], [nat_lit 7749]),
    ([nat_lit 70676], [nat_lit 99]),
    ([nat_lit 70677], [nat_lit 99, nat_lit 688]),
    ([nat_lit 70678], [nat_lit 106]),
    ([nat_lit 70679], [nat_lit 106, nat_lit 688]),
    ([nat_lit 70680], [nat_lit 241]),
    ([nat_lit 70682], [nat_lit 7789]),
    ([nat_lit 70683], [nat_lit 7789, nat_lit 688]),
    ([nat_lit 70684], [nat_lit 7693]),
    ([nat_lit 70685], [nat_lit 7693, nat_lit 688]),
    ([nat_lit 70686], [nat_lit 7751]),
    ([nat_lit 70687], [nat_lit 116]),
    ([nat_lit 70688], [nat_lit 116, nat_lit 688]),
    ([nat_lit 70689], [nat_lit 100]),
    ([nat_lit 70690], [nat_lit 100, nat_lit 688]),
    ([nat_lit 70691], [nat_lit 110]),
    ([nat_lit 70693], [nat_lit 112]),
    ([nat_lit 70694], [nat_lit 112, nat_lit 688]),
    ([nat_lit 70695], [nat_lit 98]),
    ([nat_lit 70696], [nat_lit 98, nat_lit 688]),
    ([nat_lit 70697], [nat_lit 109]),
    ([nat_lit 70699], [nat_lit 121]),
    ([nat_lit 70700], [nat_lit 114]),
    ([nat_lit 70702], [nat_lit 108]),
    ([nat_lit 70705], [nat_lit 347]),
    ([nat_lit 70707], [nat_lit 115]),
    ([nat_lit 70708], [nat_lit 104])]
  deadConsonant := []
  subjoined := []
  vowelSign := [([nat_lit 70718], [nat_lit 275]),
    ([nat_lit 70720], [nat_lit 333]),
    ([nat_lit 70709], [nat_lit 257]),
    ([nat_lit 70710], [nat_lit 105]),
    ([nat_lit 70711], [nat_lit 299]),
    ([nat_lit 70712], [nat_lit 117]),
    ([nat_lit 70713], [nat_lit 363]),
    ([nat_lit 70714], [nat_lit 114, nat_lit 805]),
    ([nat_lit 70715], [nat_lit 114, nat_lit 805, nat_lit 772]),
    ([nat_lit 70716], [nat_lit 108, nat_lit 805]),
    ([nat_lit 70717], [nat_lit 108, nat_lit 805, nat_lit 772]),
    ([nat_lit 70719], [nat_lit 97, nat_lit 105]),
    ([nat_lit 70721], [nat_lit 97, nat_lit 117])]
  vowel := [([nat_lit 70666], [nat_lit 275]),
    ([nat_lit 70668], [nat_lit 333]),
    ([nat_lit 70656], [nat_lit 97]),
    ([nat_lit 70657], [nat_lit 257]),
    ([nat_lit 70658], [nat_lit 105]),
    ([nat_lit 70659], [nat_lit 299]),
    ([nat_lit 70660], [nat_lit 117]),
    ([nat_lit 70661], [nat_lit 363]),
    ([nat_lit 70662], [nat_lit 114, nat_lit 805]),
    ([nat_lit 70663], [nat_lit 114, nat_lit 805, nat_lit 772]),
    ([nat_lit 70664], [nat_lit 108, nat_lit 805]),
    ([nat_lit 70665], [nat_lit 108, nat_lit 805, nat_lit 772]),
    ([nat_lit 70667], [nat_lit 97, nat_lit 105]),
    ([nat_lit 70669], [nat_lit 97, nat_lit 117])]
  vowelLength := []
  coda := [([nat_lit 70723], [nat_lit 109, nat_lit 784]),
    ([nat_lit 70728], [nat_lit 7745, nat_lit 803]),
    ([nat_lit 70726], [nat_lit 721]),
    ([nat_lit 70724], [nat_lit 7745]),
    ([nat_lit 70723], [nat_lit 109, nat_lit 784]),
    ([nat_lit 70725], [nat_lit 7717]),
    ([nat_lit 70727], [nat_lit 8217])]
  standalone := [([nat_lit 70729], [nat_lit 245, nat_lit 109])]
  virama := [([nat_lit 70722], [nat_lit 70722])]
  inherent := [([nat_lit 97], [nat_lit 97])]
  accept := []
  preserve := [([nat_lit 70722, nat_lit 8204], [nat_lit 1114112])]
  nfc := []
  visualRewrite := [([nat_lit 70656, nat_lit 70709], [nat_lit 70657]),
    ([nat_lit 70660, nat_lit 70720], [nat_lit 70668]),
    ([nat_lit 70718, nat_lit 70709], [nat_lit 70720])]
  readingNorm := []
  marks := [nat_lit 70723, nat_lit 70726, nat_lit 70724, nat_lit 70722, nat_lit 70718, nat_lit 70712, nat_lit 70713, nat_lit 70714, nat_lit 70715, nat_lit 70716, nat_lit 70717, nat_lit 70719]
  noInherentVowel := false

end Nisaba.Data
