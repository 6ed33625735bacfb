import Verif.Model.Tables
/-! Generated by tools/gen_tables.py from
  nisaba/scripts/brahmic/data/Lepc/consonant.textproto
  nisaba/scripts/brahmic/data/Lepc/dead_consonant.textproto
  nisaba/scripts/brahmic/data/Lepc/reading_norm.textproto
  nisaba/scripts/brahmic/data/Lepc/subjoined_consonant.textproto
  nisaba/scripts/brahmic/data/Lepc/uname_prefix.textproto
  nisaba/scripts/brahmic/data/Lepc/vowel.textproto
  nisaba/scripts/brahmic/data/Lepc/vowel_length_sign.textproto
  nisaba/scripts/brahmic/data/Lepc/vowel_sign.textproto
  nisaba/scripts/brahmic/data/inherent_vowel.textproto
-/
namespace Nisaba.Data

def lepc : BrahmicData where
  name := "Lepc"
  consonant := [([nat_lit 7168], [nat_lit 107]),
    ([nat_lit 7169], [nat_lit 107, nat_lit 737]),
    ([nat_lit 7170], [nat_lit 107, nat_lit 688]),
    ([nat_lit 7171], [nat_lit 103]),
    ([nat_lit 7172], [nat_lit 103, nat_lit 737]),
    ([nat_lit 7173], [nat_lit 7749]),
    ([nat_lit 7174], [nat_lit 99]),
    ([nat_lit 7175], [nat_lit 99, nat_lit 688]),
    ([nat_lit 7176], [nat_lit 106]),
    ([nat_lit 7177], [nat_lit 241]),
    ([nat_lit 7178], [nat_lit 116]),
    ([nat_lit 7179], [nat_lit 116, nat_lit 688]),
    ([nat_lit 7180], [nat_lit 100]),
    ([nat_lit 7181], [nat_lit 110]),
    ([nat_lit 7182], [nat_lit 112]),
    ([nat_lit 7183], [nat_lit 112, nat_lit 737]),
    ([nat_lit 7184], [nat_lit 112, nat_lit 688]),
    ([nat_lit 7185], [nat_lit 102]),
    ([nat_lit 7186], [nat_lit 102, nat_lit 737]),
    ([nat_lit 7187], [nat_lit 98]),
    ([nat_lit 7188], [nat_lit 98, nat_lit 737]),
    ([nat_lit 7189], [nat_lit 109]),
    ([nat_lit 7190], [nat_lit 109, nat_lit 737]),
    ([nat_lit 7191], [nat_lit 116, nat_lit 865, nat_lit 115]),
    ([nat_lit 7192], [nat_lit 116, nat_lit 865, nat_lit 115, nat_lit 688]),
    ([nat_lit 7193], [nat_lit 122]),
    ([nat_lit 7194], [nat_lit 121]),
    ([nat_lit 7195], [nat_lit 114]),
    ([nat_lit 7196], [nat_lit 108]),
    ([nat_lit 7197], [nat_lit 104]),
    ([nat_lit 7198], [nat_lit 104, nat_lit 737]),
    ([nat_lit 7199], [nat_lit 118]),
    ([nat_lit 7200], [nat_lit 115]),
    ([nat_lit 7201], [nat_lit 347]),
    ([nat_lit 7202], [nat_lit 119]),
    ([nat_lit 7245], [nat_lit 7789]),
    ([nat_lit 7246], [nat_lit 7789, nat_lit 688]),
    ([nat_lit 7247], [nat_lit 7693]),
    ([nat_lit 7168, nat_lit 7223, nat_lit 7205], [nat_lit 107, nat_lit 803, nat_lit 691]),
    ([nat_lit 7197, nat_lit 7223, nat_lit 7205], [nat_lit 104, nat_lit 803, nat_lit 691]),
    ([nat_lit 7171, nat_lit 7223, nat_lit 7205], [nat_lit 103, nat_lit 803, nat_lit 691]),
    ([nat_lit 7203, nat_lit 7204], [nat_lit 97, nat_lit 563])]
  deadConsonant := [([nat_lit 7213], [nat_lit 107, nat_lit 96]),
    ([nat_lit 7214], [nat_lit 109, nat_lit 96]),
    ([nat_lit 7215], [nat_lit 108, nat_lit 96]),
    ([nat_lit 7216], [nat_lit 110, nat_lit 96]),
    ([nat_lit 7217], [nat_lit 112, nat_lit 96]),
    ([nat_lit 7218], [nat_lit 114, nat_lit 96]),
    ([nat_lit 7219], [nat_lit 116, nat_lit 96]),
    ([nat_lit 7220], [nat_lit 110, nat_lit 778]),
    ([nat_lit 7221], [nat_lit 7749, nat_lit 803])]
  subjoined := [([nat_lit 7204], [nat_lit 7925]),
    ([nat_lit 7205], [nat_lit 7771]),
    ([nat_lit 7205, nat_lit 7204], [nat_lit 7771, nat_lit 7925])]
  vowelSign := [([nat_lit 7206], [nat_lit 257]),
    ([nat_lit 7207], [nat_lit 105]),
    ([nat_lit 7208], [nat_lit 111]),
    ([nat_lit 7209], [nat_lit 333]),
    ([nat_lit 7210], [nat_lit 117]),
    ([nat_lit 7211], [nat_lit 363]),
    ([nat_lit 7212], [nat_lit 101])]
  vowel := [([nat_lit 7203], [nat_lit 97]),
    ([nat_lit 7203, nat_lit 7206], [nat_lit 257]),
    ([nat_lit 7203, nat_lit 7207], [nat_lit 105]),
    ([nat_lit 7203, nat_lit 7208], [nat_lit 111]),
    ([nat_lit 7203, nat_lit 7209], [nat_lit 333]),
    ([nat_lit 7203, nat_lit 7210], [nat_lit 117]),
    ([nat_lit 7203, nat_lit 7211], [nat_lit 363]),
    ([nat_lit 7203, nat_lit 7212], [nat_lit 101])]
  vowelLength := [([nat_lit 7222], [nat_lit 39])]
  coda := []
  standalone := []
  virama := []
  inherent := [([nat_lit 97], [nat_lit 97])]
  accept := []
  preserve := []
  nfc := []
  visualRewrite := []
  readingNorm := [([nat_lit 7168, nat_lit 7223, nat_lit 7205], [nat_lit 7245]),
    ([nat_lit 7197, nat_lit 7223, nat_lit 7205], [nat_lit 7246]),
    ([nat_lit 7171, nat_lit 7223, nat_lit 7205], [nat_lit 7247])]
  marks := [nat_lit 7223, nat_lit 7213, nat_lit 7214, nat_lit 7215, nat_lit 7216, nat_lit 7217, nat_lit 7218, nat_lit 7219, nat_lit 7212, nat_lit 7222]
  noInherentVowel := false

end Nisaba.Data
