import Verif.Model.Tables
/-! Generated by tools/gen_tables.py from
  nisaba/scripts/brahmic/data/Sylo/coda.textproto
  nisaba/scripts/brahmic/data/Sylo/consonant.textproto
  nisaba/scripts/brahmic/data/Sylo/inherent_vowel.textproto
  nisaba/scripts/brahmic/data/Sylo/reading_norm.textproto
  nisaba/scripts/brahmic/data/Sylo/uname_prefix.textproto
  nisaba/scripts/brahmic/data/Sylo/virama.textproto
  nisaba/scripts/brahmic/data/Sylo/vowel.textproto
  nisaba/scripts/brahmic/data/Sylo/vowel_sign.textproto
-/
namespace Nisaba.Data

def sylo : BrahmicData where
  name := "Sylo"
  consonant := [([nat_lit 43015], [nat_lit 107]),
    ([nat_lit 43016], [nat_lit 107, nat_lit 688]),
    ([nat_lit 43017], [nat_lit 103]),
    ([nat_lit 43018], [nat_lit 103, nat_lit 688]),
    ([nat_lit 43020], [nat_lit 99]),
    ([nat_lit 43021], [nat_lit 99, nat_lit 688]),
    ([nat_lit 43022], [nat_lit 106]),
    ([nat_lit 43023], [nat_lit 106, nat_lit 688]),
    ([nat_lit 43024], [nat_lit 7789]),
    ([nat_lit 43025], [nat_lit 7789, nat_lit 688]),
    ([nat_lit 43026], [nat_lit 7693]),
    ([nat_lit 43027], [nat_lit 7693, nat_lit 688]),
    ([nat_lit 43028], [nat_lit 116]),
    ([nat_lit 43029], [nat_lit 116, nat_lit 688]),
    ([nat_lit 43030], [nat_lit 100]),
    ([nat_lit 43031], [nat_lit 100, nat_lit 688]),
    ([nat_lit 43032], [nat_lit 110]),
    ([nat_lit 43033], [nat_lit 112]),
    ([nat_lit 43034], [nat_lit 112, nat_lit 688]),
    ([nat_lit 43035], [nat_lit 98]),
    ([nat_lit 43036], [nat_lit 98, nat_lit 688]),
    ([nat_lit 43037], [nat_lit 109]),
    ([nat_lit 43038], [nat_lit 114]),
    ([nat_lit 43039], [nat_lit 108]),
    ([nat_lit 43040], [nat_lit 114, nat_lit 774]),
    ([nat_lit 43041], [nat_lit 115]),
    ([nat_lit 43042], [nat_lit 104])]
  deadConsonant := []
  subjoined := []
  vowelSign := [([nat_lit 43043], [nat_lit 97]),
    ([nat_lit 43044], [nat_lit 105]),
    ([nat_lit 43045], [nat_lit 117]),
    ([nat_lit 43046], [nat_lit 101]),
    ([nat_lit 43047], [nat_lit 333]),
    ([nat_lit 43010], [nat_lit 111, nat_lit 105]),
    ([nat_lit 43043, nat_lit 43010], [nat_lit 97, nat_lit 105]),
    ([nat_lit 43045, nat_lit 43010], [nat_lit 117, nat_lit 105])]
  vowel := [([nat_lit 43008], [nat_lit 97]),
    ([nat_lit 43009], [nat_lit 105]),
    ([nat_lit 43011], [nat_lit 117]),
    ([nat_lit 43012], [nat_lit 101]),
    ([nat_lit 43013], [nat_lit 111]),
    ([nat_lit 43008, nat_lit 43010], [nat_lit 97, nat_lit 105]),
    ([nat_lit 43011, nat_lit 43010], [nat_lit 117, nat_lit 105]),
    ([nat_lit 43012, nat_lit 43010], [nat_lit 101, nat_lit 105]),
    ([nat_lit 43013, nat_lit 43010], [nat_lit 111, nat_lit 105])]
  vowelLength := []
  coda := [([nat_lit 43019], [nat_lit 7745])]
  standalone := []
  virama := [([nat_lit 43014], [nat_lit 43014])]
  inherent := [([nat_lit 111], [nat_lit 111])]
  accept := []
  preserve := []
  nfc := []
  visualRewrite := []
  readingNorm := []
  marks := [nat_lit 43019, nat_lit 43014, nat_lit 43010, nat_lit 43045, nat_lit 43046]
  noInherentVowel := false

end Nisaba.Data
