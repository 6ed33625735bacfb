import Verif.Model.Tables
/-! Generated by tools/gen_tables.py from
  nisaba/scripts/brahmic/data/Taml/coda.textproto
  nisaba/scripts/brahmic/data/Taml/consonant.textproto
  nisaba/scripts/brahmic/data/Taml/nfc.textproto
  nisaba/scripts/brahmic/data/Taml/preserve.textproto
  nisaba/scripts/brahmic/data/Taml/standalone.textproto
  nisaba/scripts/brahmic/data/Taml/uname_prefix.textproto
  nisaba/scripts/brahmic/data/Taml/visual_rewrite.textproto
  nisaba/scripts/brahmic/data/Taml/vowel.textproto
  nisaba/scripts/brahmic/data/Taml/vowel_sign.textproto
  nisaba/scripts/brahmic/data/inherent_vowel.textproto
  nisaba/scripts/brahmic/data/virama.textproto
-/
namespace Nisaba.Data

def taml : BrahmicData where
  name := "Taml"
  consonant := [([nat_lit 2965], [nat_lit 107]),
    ([nat_lit 2969], [nat_lit 7749]),
    ([nat_lit 2970], [nat_lit 99]),
    ([nat_lit 2972], [nat_lit 106]),
    ([nat_lit 2974], [nat_lit 241]),
    ([nat_lit 2975], [nat_lit 7789]),
    ([nat_lit 2979], [nat_lit 7751]),
    ([nat_lit 2980], [nat_lit 116]),
    ([nat_lit 2984], [nat_lit 110]),
    ([nat_lit 2986], [nat_lit 112]),
    ([nat_lit 2990], [nat_lit 109]),
    ([nat_lit 2993], [nat_lit 7775]),
    ([nat_lit 2985], [nat_lit 7753]),
    ([nat_lit 2996], [nat_lit 7739]),
    ([nat_lit 2991], [nat_lit 121]),
    ([nat_lit 2992], [nat_lit 114]),
    ([nat_lit 2994], [nat_lit 108]),
    ([nat_lit 2995], [nat_lit 7735]),
    ([nat_lit 2997], [nat_lit 118]),
    ([nat_lit 2998], [nat_lit 347]),
    ([nat_lit 2999], [nat_lit 7779]),
    ([nat_lit 3000], [nat_lit 115]),
    ([nat_lit 3001], [nat_lit 104]),
    ([nat_lit 2947, nat_lit 2986], [nat_lit 102]),
    ([nat_lit 2947, nat_lit 2972], [nat_lit 122]),
    ([nat_lit 2947, nat_lit 3000], [nat_lit 120]),
    ([nat_lit 2947, nat_lit 2965], [nat_lit 113])]
  deadConsonant := []
  subjoined := []
  vowelSign := [([nat_lit 3006], [nat_lit 257]),
    ([nat_lit 3007], [nat_lit 105]),
    ([nat_lit 3008], [nat_lit 299]),
    ([nat_lit 3009], [nat_lit 117]),
    ([nat_lit 3010], [nat_lit 363]),
    ([nat_lit 3014], [nat_lit 101]),
    ([nat_lit 3015], [nat_lit 275]),
    ([nat_lit 3016], [nat_lit 97, nat_lit 105]),
    ([nat_lit 3018], [nat_lit 111]),
    ([nat_lit 3019], [nat_lit 333]),
    ([nat_lit 3020], [nat_lit 97, nat_lit 117])]
  vowel := [([nat_lit 2949], [nat_lit 97]),
    ([nat_lit 2950], [nat_lit 257]),
    ([nat_lit 2951], [nat_lit 105]),
    ([nat_lit 2952], [nat_lit 299]),
    ([nat_lit 2953], [nat_lit 117]),
    ([nat_lit 2954], [nat_lit 363]),
    ([nat_lit 2958], [nat_lit 101]),
    ([nat_lit 2959], [nat_lit 275]),
    ([nat_lit 2960], [nat_lit 97, nat_lit 105]),
    ([nat_lit 2962], [nat_lit 111]),
    ([nat_lit 2963], [nat_lit 333]),
    ([nat_lit 2964], [nat_lit 97, nat_lit 117])]
  vowelLength := []
  coda := [([nat_lit 2946], [nat_lit 7745])]
  standalone := [([nat_lit 2947], [nat_lit 7733])]
  virama := [([nat_lit 3021], [nat_lit 3021])]
  inherent := [([nat_lit 97], [nat_lit 97])]
  accept := []
  preserve := [([nat_lit 3021, nat_lit 8204], [nat_lit 1114112])]
  nfc := [([nat_lit 2962, nat_lit 3031], [nat_lit 2964]),
    ([nat_lit 3014, nat_lit 3006], [nat_lit 3018]),
    ([nat_lit 3015, nat_lit 3006], [nat_lit 3019]),
    ([nat_lit 3014, nat_lit 3031], [nat_lit 3020])]
  visualRewrite := [([nat_lit 2949, nat_lit 3010], [nat_lit 2950]),
    ([nat_lit 3006, nat_lit 3021], [nat_lit 2992, nat_lit 3021]),
    ([nat_lit 3006, nat_lit 3007], [nat_lit 2992, nat_lit 3007]),
    ([nat_lit 3006, nat_lit 3008], [nat_lit 2992, nat_lit 3008]),
    ([nat_lit 3000, nat_lit 3021, nat_lit 2992, nat_lit 3008], [nat_lit 2998, nat_lit 3021, nat_lit 2992, nat_lit 3008]),
    ([nat_lit 2953, nat_lit 3031], [nat_lit 2954]),
    ([nat_lit 3009, nat_lit 3006], [nat_lit 3010]),
    ([nat_lit 3018, nat_lit 3021], [nat_lit 3014, nat_lit 2992, nat_lit 3021]),
    ([nat_lit 3018, nat_lit 3006], [nat_lit 3014, nat_lit 2992, nat_lit 3006]),
    ([nat_lit 3018, nat_lit 3007], [nat_lit 3014, nat_lit 2992, nat_lit 3007]),
    ([nat_lit 3019, nat_lit 3021], [nat_lit 3015, nat_lit 2992, nat_lit 3021]),
    ([nat_lit 3019, nat_lit 3006], [nat_lit 3015, nat_lit 2992, nat_lit 3006]),
    ([nat_lit 3019, nat_lit 3007], [nat_lit 3015, nat_lit 2992, nat_lit 3007]),
    ([nat_lit 3020, nat_lit 3021], [nat_lit 3014, nat_lit 2995, nat_lit 3021]),
    ([nat_lit 3020, nat_lit 3006], [nat_lit 3014, nat_lit 2995, nat_lit 3006]),
    ([nat_lit 3020, nat_lit 3007], [nat_lit 3014, nat_lit 2995, nat_lit 3007]),
    ([nat_lit 3006, nat_lit 3014], [nat_lit 3018]),
    ([nat_lit 3006, nat_lit 3015], [nat_lit 3019]),
    ([nat_lit 3031, nat_lit 3014], [nat_lit 3020])]
  readingNorm := []
  marks := [nat_lit 2946, nat_lit 3021, nat_lit 3008]
  noInherentVowel := false

end Nisaba.Data
