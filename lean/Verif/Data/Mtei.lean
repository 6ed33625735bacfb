import Verif.Model.Tables
/-! Generated by tools/gen_tables.py from
  nisaba/scripts/brahmic/data/Mtei/accept.textproto
  nisaba/scripts/brahmic/data/Mtei/coda.textproto
  nisaba/scripts/brahmic/data/Mtei/consonant.textproto
  nisaba/scripts/brahmic/data/Mtei/dead_consonant.textproto
  nisaba/scripts/brahmic/data/Mtei/standalone.textproto
  nisaba/scripts/brahmic/data/Mtei/uname_prefix.textproto
  nisaba/scripts/brahmic/data/Mtei/virama.textproto
  nisaba/scripts/brahmic/data/Mtei/vowel.textproto
  nisaba/scripts/brahmic/data/Mtei/vowel_sign.textproto
  nisaba/scripts/brahmic/data/inherent_vowel.textproto
-/
namespace Nisaba.Data

def mtei : BrahmicData where
  name := "Mtei"
  consonant := [([nat_lit 43968], [nat_lit 107]),
    ([nat_lit 43969], [nat_lit 115]),
    ([nat_lit 43970], [nat_lit 108]),
    ([nat_lit 43971], [nat_lit 109]),
    ([nat_lit 43972], [nat_lit 112]),
    ([nat_lit 43973], [nat_lit 110]),
    ([nat_lit 43974], [nat_lit 99, nat_lit 688]),
    ([nat_lit 43975], [nat_lit 116]),
    ([nat_lit 43976], [nat_lit 107, nat_lit 688]),
    ([nat_lit 43977], [nat_lit 7749]),
    ([nat_lit 43978], [nat_lit 116, nat_lit 688]),
    ([nat_lit 43979], [nat_lit 119]),
    ([nat_lit 43980], [nat_lit 121]),
    ([nat_lit 43981], [nat_lit 104]),
    ([nat_lit 43984], [nat_lit 112, nat_lit 688]),
    ([nat_lit 43986], [nat_lit 103]),
    ([nat_lit 43987], [nat_lit 106, nat_lit 688]),
    ([nat_lit 43988], [nat_lit 114]),
    ([nat_lit 43989], [nat_lit 98]),
    ([nat_lit 43990], [nat_lit 106]),
    ([nat_lit 43991], [nat_lit 100]),
    ([nat_lit 43992], [nat_lit 103, nat_lit 688]),
    ([nat_lit 43993], [nat_lit 100, nat_lit 688]),
    ([nat_lit 43994], [nat_lit 98, nat_lit 688])]
  deadConsonant := [([nat_lit 43995], [nat_lit 107, nat_lit 11823]),
    ([nat_lit 43996], [nat_lit 108, nat_lit 11823]),
    ([nat_lit 43997], [nat_lit 109, nat_lit 11823]),
    ([nat_lit 43998], [nat_lit 112, nat_lit 11823]),
    ([nat_lit 43999], [nat_lit 110, nat_lit 11823]),
    ([nat_lit 44000], [nat_lit 116, nat_lit 11823]),
    ([nat_lit 44001], [nat_lit 7749, nat_lit 11823]),
    ([nat_lit 44002], [nat_lit 105, nat_lit 11823])]
  subjoined := []
  vowelSign := [([nat_lit 44005], [nat_lit 257]),
    ([nat_lit 44004], [nat_lit 299]),
    ([nat_lit 44008], [nat_lit 363]),
    ([nat_lit 44006], [nat_lit 275]),
    ([nat_lit 44003], [nat_lit 333]),
    ([nat_lit 44009], [nat_lit 97, nat_lit 105]),
    ([nat_lit 44007], [nat_lit 97, nat_lit 117])]
  vowel := [([nat_lit 43982], [nat_lit 117]),
    ([nat_lit 43983], [nat_lit 105]),
    ([nat_lit 43985], [nat_lit 97]),
    ([nat_lit 43985, nat_lit 44005], [nat_lit 257]),
    ([nat_lit 43985, nat_lit 44004], [nat_lit 299]),
    ([nat_lit 43985, nat_lit 44008], [nat_lit 363]),
    ([nat_lit 43985, nat_lit 44006], [nat_lit 275]),
    ([nat_lit 43985, nat_lit 44003], [nat_lit 333]),
    ([nat_lit 43985, nat_lit 44009], [nat_lit 97, nat_lit 105]),
    ([nat_lit 43985, nat_lit 44007], [nat_lit 97, nat_lit 117])]
  vowelLength := []
  coda := [([nat_lit 44010], [nat_lit 7745]),
    ([nat_lit 44012], [nat_lit 94])]
  standalone := [([nat_lit 43762], [nat_lit 245, nat_lit 109])]
  virama := [([nat_lit 44013], [nat_lit 44013])]
  inherent := [([nat_lit 97], [nat_lit 97])]
  accept := [([nat_lit 44012], [nat_lit 44012])]
  preserve := []
  nfc := []
  visualRewrite := []
  readingNorm := []
  marks := [nat_lit 44013, nat_lit 44005, nat_lit 44008]
  noInherentVowel := false

end Nisaba.Data
