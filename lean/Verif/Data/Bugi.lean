import Verif.Model.Tables
/-! Generated by tools/gen_tables.py from
  nisaba/scripts/brahmic/data/Bugi/consonant.textproto
  nisaba/scripts/brahmic/data/Bugi/uname_prefix.textproto
  nisaba/scripts/brahmic/data/Bugi/vowel.textproto
  nisaba/scripts/brahmic/data/Bugi/vowel_sign.textproto
  nisaba/scripts/brahmic/data/inherent_vowel.textproto
-/
namespace Nisaba.Data

def bugi : BrahmicData where
  name := "Bugi"
  consonant := [([nat_lit 6656], [nat_lit 107]),
    ([nat_lit 6657], [nat_lit 103]),
    ([nat_lit 6658], [nat_lit 331]),
    ([nat_lit 6659], [nat_lit 331, nat_lit 107]),
    ([nat_lit 6660], [nat_lit 112]),
    ([nat_lit 6661], [nat_lit 98]),
    ([nat_lit 6662], [nat_lit 109]),
    ([nat_lit 6663], [nat_lit 109, nat_lit 112]),
    ([nat_lit 6664], [nat_lit 116]),
    ([nat_lit 6665], [nat_lit 100]),
    ([nat_lit 6666], [nat_lit 110]),
    ([nat_lit 6667], [nat_lit 110, nat_lit 114]),
    ([nat_lit 6668], [nat_lit 99]),
    ([nat_lit 6669], [nat_lit 106]),
    ([nat_lit 6670], [nat_lit 626]),
    ([nat_lit 6671], [nat_lit 626, nat_lit 99]),
    ([nat_lit 6672], [nat_lit 121]),
    ([nat_lit 6673], [nat_lit 114]),
    ([nat_lit 6674], [nat_lit 108]),
    ([nat_lit 6675], [nat_lit 119]),
    ([nat_lit 6676], [nat_lit 115]),
    ([nat_lit 6678], [nat_lit 104])]
  deadConsonant := []
  subjoined := []
  vowelSign := [([nat_lit 6679], [nat_lit 105]),
    ([nat_lit 6680], [nat_lit 117]),
    ([nat_lit 6681], [nat_lit 101]),
    ([nat_lit 6682], [nat_lit 111]),
    ([nat_lit 6683], [nat_lit 230])]
  vowel := [([nat_lit 6677], [nat_lit 97]),
    ([nat_lit 6677, nat_lit 6679], [nat_lit 105]),
    ([nat_lit 6677, nat_lit 6680], [nat_lit 117]),
    ([nat_lit 6677, nat_lit 6681], [nat_lit 101]),
    ([nat_lit 6677, nat_lit 6682], [nat_lit 111]),
    ([nat_lit 6677, nat_lit 6683], [nat_lit 230])]
  vowelLength := []
  coda := []
  standalone := []
  virama := []
  inherent := [([nat_lit 97], [nat_lit 97])]
  accept := []
  preserve := []
  nfc := []
  visualRewrite := []
  readingNorm := []
  marks := [nat_lit 6679, nat_lit 6680, nat_lit 6683]
  noInherentVowel := false

end Nisaba.Data
