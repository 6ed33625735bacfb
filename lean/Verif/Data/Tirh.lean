import Verif.Model.Tables
/-! Generated by tools/gen_tables.py from
  nisaba/scripts/brahmic/data/Tirh/coda.textproto
  nisaba/scripts/brahmic/data/Tirh/consonant.textproto
  nisaba/scripts/brahmic/data/Tirh/nfc.textproto
  nisaba/scripts/brahmic/data/Tirh/preserve.textproto
  nisaba/scripts/brahmic/data/Tirh/standalone.textproto
  nisaba/scripts/brahmic/data/Tirh/uname_prefix.textproto
  nisaba/scripts/brahmic/data/Tirh/visual_rewrite.textproto
  nisaba/scripts/brahmic/data/Tirh/vowel.textproto
  nisaba/scripts/brahmic/data/Tirh/vowel_sign.textproto
  nisaba/scripts/brahmic/data/coda.textproto
  nisaba/scripts/brahmic/data/consonant.textproto
  nisaba/scripts/brahmic/data/inherent_vowel.textproto
  nisaba/scripts/brahmic/data/preserve.textproto
  nisaba/scripts/brahmic/data/standalone.textproto
  nisaba/scripts/brahmic/data/virama.textproto
  nisaba/scripts/brahmic/data/vowel.textproto
  nisaba/scripts/brahmic/data/vowel_sign.textproto
-/
namespace Nisaba.Data

def tirh : BrahmicData where
  name := "Tirh"
  consonant := [([nat_lit 70827], [nat_lit 118]),
    ([nat_lit 70829], [nat_lit 7779]),
    ([nat_lit 70811, nat_lit 70851], [nat_lit 7771]),
    ([nat_lit 70812, nat_lit 70851], [nat_lit 7771, nat_lit 688]),
    ([nat_lit 70826, nat_lit 70851], [nat_lit 7735]),
    ([nat_lit 70824, nat_lit 70851], [nat_lit 7823]),
    ([nat_lit 70799], [nat_lit 107]),
    ([nat_lit 70800], [nat_lit 107, nat_lit 688]),
    ([nat_lit 70801], [nat_lit 103]),
    ([nat_lit 70802], [nat_lit 103, nat_lit 688]),
    ([nat_lit 70803], [nat_lit 7749]),
    ([nat_lit 70804], [nat_lit 99]),
    ([nat_lit 70805], [nat_lit 99, nat_lit 688]),
    ([nat_lit 70806], [nat_lit 106]),
    ([nat_lit 70807], [nat_lit 106, nat_lit 688]),
    ([nat_lit 70808], [nat_lit 241]),
    ([nat_lit 70809], [nat_lit 7789]),
    ([nat_lit 70810], [nat_lit 7789, nat_lit 688]),
    ([nat_lit 70811], [nat_lit 7693]),
    ([nat_lit 70812], [nat_lit 7693, nat_lit 688]),
    ([nat_lit 70813], [nat_lit 7751]),
    ([nat_lit 70814], [nat_lit 116]),
    ([nat_lit 70815], [nat_lit 116, nat_lit 688]),
    ([nat_lit 70816], [nat_lit 100]),
    ([nat_lit 70817], [nat_lit 100, nat_lit 688]),
    ([nat_lit 70818], [nat_lit 110]),
    ([nat_lit 70819], [nat_lit 112]),
    ([nat_lit 70820], [nat_lit 112, nat_lit 688]),
    ([nat_lit 70821], [nat_lit 98]),
    ([nat_lit 70822], [nat_lit 98, nat_lit 688]),
    ([nat_lit 70823], [nat_lit 109]),
    ([nat_lit 70824], [nat_lit 121]),
    ([nat_lit 70825], [nat_lit 114]),
    ([nat_lit 70826], [nat_lit 108]),
    ([nat_lit 70828], [nat_lit 347]),
    ([nat_lit 70830], [nat_lit 115]),
    ([nat_lit 70831], [nat_lit 104])]
  deadConsonant := []
  subjoined := []
  vowelSign := [([nat_lit 70841], [nat_lit 275]),
    ([nat_lit 70842], [nat_lit 233]),
    ([nat_lit 70844], [nat_lit 333]),
    ([nat_lit 70845], [nat_lit 243]),
    ([nat_lit 70832], [nat_lit 257]),
    ([nat_lit 70833], [nat_lit 105]),
    ([nat_lit 70834], [nat_lit 299]),
    ([nat_lit 70835], [nat_lit 117]),
    ([nat_lit 70836], [nat_lit 363]),
    ([nat_lit 70837], [nat_lit 114, nat_lit 805]),
    ([nat_lit 70838], [nat_lit 114, nat_lit 805, nat_lit 772]),
    ([nat_lit 70839], [nat_lit 108, nat_lit 805]),
    ([nat_lit 70840], [nat_lit 108, nat_lit 805, nat_lit 772]),
    ([nat_lit 70843], [nat_lit 97, nat_lit 105]),
    ([nat_lit 70846], [nat_lit 97, nat_lit 117])]
  vowel := [([nat_lit 70795], [nat_lit 275]),
    ([nat_lit 70797], [nat_lit 333]),
    ([nat_lit 70785], [nat_lit 97]),
    ([nat_lit 70786], [nat_lit 257]),
    ([nat_lit 70787], [nat_lit 105]),
    ([nat_lit 70788], [nat_lit 299]),
    ([nat_lit 70789], [nat_lit 117]),
    ([nat_lit 70790], [nat_lit 363]),
    ([nat_lit 70791], [nat_lit 114, nat_lit 805]),
    ([nat_lit 70792], [nat_lit 114, nat_lit 805, nat_lit 772]),
    ([nat_lit 70793], [nat_lit 108, nat_lit 805]),
    ([nat_lit 70794], [nat_lit 108, nat_lit 805, nat_lit 772]),
    ([nat_lit 70796], [nat_lit 97, nat_lit 105]),
    ([nat_lit 70798], [nat_lit 97, nat_lit 117])]
  vowelLength := []
  coda := [([nat_lit 70853], [nat_lit 7745, nat_lit 803]),
    ([nat_lit 70848], [nat_lit 7745]),
    ([nat_lit 70847], [nat_lit 109, nat_lit 784]),
    ([nat_lit 70849], [nat_lit 7717]),
    ([nat_lit 70852], [nat_lit 8217])]
  standalone := [([nat_lit 70784], [nat_lit 608]),
    ([nat_lit 70855], [nat_lit 245, nat_lit 109])]
  virama := [([nat_lit 70850], [nat_lit 70850])]
  inherent := [([nat_lit 97], [nat_lit 97])]
  accept := []
  preserve := [([nat_lit 8205, nat_lit 70850], [nat_lit 1114113]),
    ([nat_lit 70850, nat_lit 8204], [nat_lit 1114112])]
  nfc := [([nat_lit 70841, nat_lit 70842], [nat_lit 70843]),
    ([nat_lit 70841, nat_lit 70832], [nat_lit 70844]),
    ([nat_lit 70841, nat_lit 70845], [nat_lit 70846])]
  visualRewrite := [([nat_lit 70785, nat_lit 70832], [nat_lit 70786]),
    ([nat_lit 70826, nat_lit 70837], [nat_lit 70793]),
    ([nat_lit 70826, nat_lit 70838], [nat_lit 70794]),
    ([nat_lit 70795, nat_lit 70842], [nat_lit 70796]),
    ([nat_lit 70797, nat_lit 70842], [nat_lit 70798])]
  readingNorm := []
  marks := [nat_lit 70848, nat_lit 70847, nat_lit 70851, nat_lit 70850, nat_lit 70842, nat_lit 70835, nat_lit 70836, nat_lit 70837, nat_lit 70838, nat_lit 70839, nat_lit 70840]
  noInherentVowel := false

end Nisaba.Data
