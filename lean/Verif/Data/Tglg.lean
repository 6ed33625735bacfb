import Verif.Model.Tables
/-! Generated by tools/gen_tables.py from
  nisaba/scripts/brahmic/data/Tglg/consonant.textproto
  nisaba/scripts/brahmic/data/Tglg/uname_prefix.textproto
  nisaba/scripts/brahmic/data/Tglg/vowel.textproto
  nisaba/scripts/brahmic/data/Tglg/vowel_sign.textproto
  nisaba/scripts/brahmic/data/inherent_vowel.textproto
  nisaba/scripts/brahmic/data/virama.textproto
-/
namespace Nisaba.Data

def tglg : BrahmicData where
  name := "Tglg"
  consonant := [([nat_lit 5891], [nat_lit 107]),
    ([nat_lit 5892], [nat_lit 103]),
    ([nat_lit 5893], [nat_lit 7749]),
    ([nat_lit 5894], [nat_lit 116]),
    ([nat_lit 5895], [nat_lit 100]),
    ([nat_lit 5896], [nat_lit 110]),
    ([nat_lit 5897], [nat_lit 112]),
    ([nat_lit 5898], [nat_lit 98]),
    ([nat_lit 5899], [nat_lit 109]),
    ([nat_lit 5900], [nat_lit 121]),
    ([nat_lit 5902], [nat_lit 108]),
    ([nat_lit 5903], [nat_lit 119]),
    ([nat_lit 5904], [nat_lit 115]),
    ([nat_lit 5905], [nat_lit 104])]
  deadConsonant := []
  subjoined := []
  vowelSign := [([nat_lit 5906], [nat_lit 105]),
    ([nat_lit 5907], [nat_lit 117])]
  vowel := [([nat_lit 5888], [nat_lit 97]),
    ([nat_lit 5889], [nat_lit 105]),
    ([nat_lit 5890], [nat_lit 117])]
  vowelLength := []
  coda := []
  standalone := []
  virama := [([nat_lit 5908], [nat_lit 5908])]
  inherent := [([nat_lit 97], [nat_lit 97])]
  accept := []
  preserve := []
  nfc := []
  visualRewrite := []
  readingNorm := []
  marks := [nat_lit 5908, nat_lit 5906, nat_lit 5907]
  noInherentVowel := false

end Nisaba.Data
