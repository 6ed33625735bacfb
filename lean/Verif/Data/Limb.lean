import Verif.Model.Tables
/-! Generated by tools/gen_tables.py from
  nisaba/scripts/brahmic/data/Limb/coda.textproto
  nisaba/scripts/brahmic/data/Limb/consonant.textproto
  nisaba/scripts/brahmic/data/Limb/dead_consonant.textproto
  nisaba/scripts/brahmic/data/Limb/subjoined_consonant.textproto
  nisaba/scripts/brahmic/data/Limb/uname_prefix.textproto
  nisaba/scripts/brahmic/data/Limb/virama.textproto
  nisaba/scripts/brahmic/data/Limb/vowel.textproto
  nisaba/scripts/brahmic/data/Limb/vowel_length_sign.textproto
  nisaba/scripts/brahmic/data/Limb/vowel_sign.textproto
  nisaba/scripts/brahmic/data/inherent_vowel.textproto
-/
namespace Nisaba.Data

def limb : BrahmicData where
  name := "Limb"
  consonant := [([nat_lit 6401], [nat_lit 107]),
    ([nat_lit 6402], [nat_lit 107, nat_lit 688]),
    ([nat_lit 6403], [nat_lit 103]),
    ([nat_lit 6404], [nat_lit 103, nat_lit 688]),
    ([nat_lit 6405], [nat_lit 7749]),
    ([nat_lit 6406], [nat_lit 99]),
    ([nat_lit 6407], [nat_lit 99, nat_lit 688]),
    ([nat_lit 6408], [nat_lit 106]),
    ([nat_lit 6409], [nat_lit 106, nat_lit 688]),
    ([nat_lit 6411], [nat_lit 116]),
    ([nat_lit 6412], [nat_lit 116, nat_lit 688]),
    ([nat_lit 6413], [nat_lit 100]),
    ([nat_lit 6414], [nat_lit 100, nat_lit 688]),
    ([nat_lit 6415], [nat_lit 110]),
    ([nat_lit 6416], [nat_lit 112]),
    ([nat_lit 6417], [nat_lit 112, nat_lit 688]),
    ([nat_lit 6418], [nat_lit 98]),
    ([nat_lit 6419], [nat_lit 98, nat_lit 688]),
    ([nat_lit 6420], [nat_lit 109]),
    ([nat_lit 6421], [nat_lit 121]),
    ([nat_lit 6422], [nat_lit 114]),
    ([nat_lit 6423], [nat_lit 108]),
    ([nat_lit 6424], [nat_lit 119]),
    ([nat_lit 6425], [nat_lit 347]),
    ([nat_lit 6426], [nat_lit 7779]),
    ([nat_lit 6427], [nat_lit 115]),
    ([nat_lit 6428], [nat_lit 104]),
    ([nat_lit 6410], [nat_lit 626]),
    ([nat_lit 6429], [nat_lit 106, nat_lit 241]),
    ([nat_lit 6430], [nat_lit 7789, nat_lit 114])]
  deadConsonant := [([nat_lit 6448], [nat_lit 7731]),
    ([nat_lit 6449], [nat_lit 7749, nat_lit 803]),
    ([nat_lit 6451], [nat_lit 357]),
    ([nat_lit 6452], [nat_lit 7751]),
    ([nat_lit 6453], [nat_lit 7765]),
    ([nat_lit 6454], [nat_lit 7747]),
    ([nat_lit 6455], [nat_lit 341]),
    ([nat_lit 6456], [nat_lit 7735])]
  subjoined := [([nat_lit 6441], [nat_lit 7925]),
    ([nat_lit 6442], [nat_lit 7771]),
    ([nat_lit 6443], [nat_lit 7817])]
  vowelSign := [([nat_lit 6432], [nat_lit 257]),
    ([nat_lit 6433], [nat_lit 105]),
    ([nat_lit 6434], [nat_lit 117]),
    ([nat_lit 6435], [nat_lit 275]),
    ([nat_lit 6436], [nat_lit 97, nat_lit 105]),
    ([nat_lit 6437], [nat_lit 333]),
    ([nat_lit 6438], [nat_lit 97, nat_lit 117]),
    ([nat_lit 6439], [nat_lit 101]),
    ([nat_lit 6440], [nat_lit 111])]
  vowel := [([nat_lit 6400], [nat_lit 97]),
    ([nat_lit 6400, nat_lit 6432], [nat_lit 257]),
    ([nat_lit 6400, nat_lit 6433], [nat_lit 105]),
    ([nat_lit 6400, nat_lit 6434], [nat_lit 117]),
    ([nat_lit 6400, nat_lit 6435], [nat_lit 275]),
    ([nat_lit 6400, nat_lit 6436], [nat_lit 97, nat_lit 105]),
    ([nat_lit 6400, nat_lit 6437], [nat_lit 333]),
    ([nat_lit 6400, nat_lit 6438], [nat_lit 97, nat_lit 117]),
    ([nat_lit 6400, nat_lit 6439], [nat_lit 101]),
    ([nat_lit 6400, nat_lit 6440], [nat_lit 111])]
  vowelLength := [([nat_lit 6458], [nat_lit 39])]
  coda := [([nat_lit 6457], [nat_lit 7717]),
    ([nat_lit 6450], [nat_lit 7745])]
  standalone := []
  virama := [([nat_lit 6459], [nat_lit 6459])]
  inherent := [([nat_lit 97], [nat_lit 97])]
  accept := []
  preserve := []
  nfc := []
  visualRewrite := []
  readingNorm := []
  marks := [nat_lit 6457, nat_lit 6450, nat_lit 6459, nat_lit 6432, nat_lit 6433, nat_lit 6434, nat_lit 6439, nat_lit 6440, nat_lit 6458]
  noInherentVowel := false

end Nisaba.Data
