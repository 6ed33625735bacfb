import Verif.Model.Tables
/-! Generated by tools/gen_tables.py from
  nisaba/scripts/brahmic/data/Knda/consonant.textproto
  nisaba/scripts/brahmic/data/Knda/nfc.textproto
  nisaba/scripts/brahmic/data/Knda/preserve.textproto
  nisaba/scripts/brahmic/data/Knda/standalone.textproto
  nisaba/scripts/brahmic/data/Knda/uname_prefix.textproto
  nisaba/scripts/brahmic/data/Knda/visual_rewrite.textproto
  nisaba/scripts/brahmic/data/Knda/vowel.textproto
  nisaba/scripts/brahmic/data/Knda/vowel_sign.textproto
  nisaba/scripts/brahmic/data/coda.textproto
  nisaba/scripts/brahmic/data/consonant.textproto
  nisaba/scripts/brahmic/data/inherent_vowel.textproto
  nisaba/scripts/brahmic/data/preserve.textproto
  nisaba/scripts/brahmic/data/virama.textproto
  nisaba/scripts/brahmic/data/vowel.textproto
  nisaba/scripts/brahmic/data/vowel_sign.textproto
-/
namespace Nisaba.Data

def knda : BrahmicData where
  name := "Knda"
  consonant := [([nat_lit 3253], [nat_lit 118]),
    ([nat_lit 3228, nat_lit 3260], [nat_lit 122]),
    ([nat_lit 3243, nat_lit 3260], [nat_lit 102]),
    ([nat_lit 3294], [nat_lit 7739]),
    ([nat_lit 3249], [nat_lit 7775]),
    ([nat_lit 3251], [nat_lit 7735]),
    ([nat_lit 3255], [nat_lit 7779]),
    ([nat_lit 3248, nat_lit 8205, nat_lit 3277, nat_lit 3247], [nat_lit 114, nat_lit 7929]),
    ([nat_lit 3221], [nat_lit 107]),
    ([nat_lit 3222], [nat_lit 107, nat_lit 688]),
    ([nat_lit 3223], [nat_lit 103]),
    ([nat_lit 3224], [nat_lit 103, nat_lit 688]),
    ([nat_lit 3225], [nat_lit 7749]),
    ([nat_lit 3226], [nat_lit 99]),
    ([nat_lit 3227], [nat_lit 99, nat_lit 688]),
    ([nat_lit 3228], [nat_lit 106]),
    ([nat_lit 3229], [nat_lit 106, nat_lit 688]),
    ([nat_lit 3230], [nat_lit 241]),
    ([nat_lit 3231], [nat_lit 7789]),
    ([nat_lit 3232], [nat_lit 7789, nat_lit 688]),
    ([nat_lit 3233], [nat_lit 7693]),
    ([nat_lit 3234], [nat_lit 7693, nat_lit 688]),
    ([nat_lit 3235], [nat_lit 7751]),
    ([nat_lit 3236], [nat_lit 116]),
    ([nat_lit 3237], [nat_lit 116, nat_lit 688]),
    ([nat_lit 3238], [nat_lit 100]),
    ([nat_lit 3239], [nat_lit 100, nat_lit 688]),
    ([nat_lit 3240], [nat_lit 110]),
    ([nat_lit 3242], [nat_lit 112]),
    ([nat_lit 3243], [nat_lit 112, nat_lit 688]),
    ([nat_lit 3244], [nat_lit 98]),
    ([nat_lit 3245], [nat_lit 98, nat_lit 688]),
    ([nat_lit 3246], [nat_lit 109]),
    ([nat_lit 3247], [nat_lit 121]),
    ([nat_lit 3248], [nat_lit 114]),
    ([nat_lit 3250], [nat_lit 108]),
    ([nat_lit 3254], [nat_lit 347]),
    ([nat_lit 3256], [nat_lit 115]),
    ([nat_lit 3257], [nat_lit 104])]
  deadConsonant := []
  subjoined := []
  vowelSign := [([nat_lit 3270], [nat_lit 101]),
    ([nat_lit 3274], [nat_lit 111]),
    ([nat_lit 3271], [nat_lit 275]),
    ([nat_lit 3275], [nat_lit 333]),
    ([nat_lit 3262], [nat_lit 257]),
    ([nat_lit 3263], [nat_lit 105]),
    ([nat_lit 3264], [nat_lit 299]),
    ([nat_lit 3265], [nat_lit 117]),
    ([nat_lit 3266], [nat_lit 363]),
    ([nat_lit 3267], [nat_lit 114, nat_lit 805]),
    ([nat_lit 3268], [nat_lit 114, nat_lit 805, nat_lit 772]),
    ([nat_lit 3298], [nat_lit 108, nat_lit 805]),
    ([nat_lit 3299], [nat_lit 108, nat_lit 805, nat_lit 772]),
    ([nat_lit 3272], [nat_lit 97, nat_lit 105]),
    ([nat_lit 3276], [nat_lit 97, nat_lit 117])]
  vowel := [([nat_lit 3206, nat_lit 3277, nat_lit 3247], [nat_lit 230]),
    ([nat_lit 3214], [nat_lit 101]),
    ([nat_lit 3218], [nat_lit 111]),
    ([nat_lit 3215], [nat_lit 275]),
    ([nat_lit 3219], [nat_lit 333]),
    ([nat_lit 3205], [nat_lit 97]),
    ([nat_lit 3206], [nat_lit 257]),
    ([nat_lit 3207], [nat_lit 105]),
    ([nat_lit 3208], [nat_lit 299]),
    ([nat_lit 3209], [nat_lit 117]),
    ([nat_lit 3210], [nat_lit 363]),
    ([nat_lit 3211], [nat_lit 114, nat_lit 805]),
    ([nat_lit 3296], [nat_lit 114, nat_lit 805, nat_lit 772]),
    ([nat_lit 3212], [nat_lit 108, nat_lit 805]),
    ([nat_lit 3297], [nat_lit 108, nat_lit 805, nat_lit 772]),
    ([nat_lit 3216], [nat_lit 97, nat_lit 105]),
    ([nat_lit 3220], [nat_lit 97, nat_lit 117])]
  vowelLength := []
  coda := [([nat_lit 3202], [nat_lit 7745]),
    ([nat_lit 3201], [nat_lit 109, nat_lit 784]),
    ([nat_lit 3203], [nat_lit 7717]),
    ([nat_lit 3261], [nat_lit 8217])]
  standalone := [([nat_lit 3313], [nat_lit 7830]),
    ([nat_lit 3314], [nat_lit 7723])]
  virama := [([nat_lit 3277], [nat_lit 3277])]
  inherent := [([nat_lit 97], [nat_lit 97])]
  accept := []
  preserve := [([nat_lit 8205, nat_lit 3277], [nat_lit 1114113]),
    ([nat_lit 3277, nat_lit 8204], [nat_lit 1114112])]
  nfc := [([nat_lit 3263, nat_lit 3285], [nat_lit 3264]),
    ([nat_lit 3270, nat_lit 3285], [nat_lit 3271]),
    ([nat_lit 3270, nat_lit 3286], [nat_lit 3272]),
    ([nat_lit 3270, nat_lit 3266], [nat_lit 3274]),
    ([nat_lit 3274, nat_lit 3285], [nat_lit 3275]),
    ([nat_lit 3270, nat_lit 3266, nat_lit 3285], [nat_lit 3275])]
  visualRewrite := [([nat_lit 3209, nat_lit 3262], [nat_lit 3210]),
    ([nat_lit 3218, nat_lit 3276], [nat_lit 3220]),
    ([nat_lit 3211, nat_lit 3262], [nat_lit 3296]),
    ([nat_lit 3253, nat_lit 3263, nat_lit 3265], [nat_lit 3246, nat_lit 3263]),
    ([nat_lit 3253, nat_lit 3270, nat_lit 3265], [nat_lit 3246, nat_lit 3270]),
    ([nat_lit 3253, nat_lit 3270, nat_lit 3265, nat_lit 3285], [nat_lit 3246, nat_lit 3271]),
    ([nat_lit 3253, nat_lit 3270, nat_lit 3265, nat_lit 3286], [nat_lit 3246, nat_lit 3272]),
    ([nat_lit 3262, nat_lit 3260], [nat_lit 3260, nat_lit 3262]),
    ([nat_lit 3263, nat_lit 3260], [nat_lit 3260, nat_lit 3263]),
    ([nat_lit 3264, nat_lit 3260], [nat_lit 3260, nat_lit 3264]),
    ([nat_lit 3265, nat_lit 3260], [nat_lit 3260, nat_lit 3265]),
    ([nat_lit 3266, nat_lit 3260], [nat_lit 3260, nat_lit 3266]),
    ([nat_lit 3267, nat_lit 3260], [nat_lit 3260, nat_lit 3267]),
    ([nat_lit 3268, nat_lit 3260], [nat_lit 3260, nat_lit 3264]),
    ([nat_lit 3270, nat_lit 3260], [nat_lit 3260, nat_lit 3264]),
    ([nat_lit 3271, nat_lit 3260], [nat_lit 3260, nat_lit 3264]),
    ([nat_lit 3272, nat_lit 3260], [nat_lit 3260, nat_lit 3264]),
    ([nat_lit 3274, nat_lit 3260], [nat_lit 3260, nat_lit 3264]),
    ([nat_lit 3275, nat_lit 3260], [nat_lit 3260, nat_lit 3264]),
    ([nat_lit 3276, nat_lit 3260], [nat_lit 3260, nat_lit 3264]),
    ([nat_lit 3285, nat_lit 3263], [nat_lit 3264]),
    ([nat_lit 3285, nat_lit 3270], [nat_lit 3271]),
    ([nat_lit 3286, nat_lit 3270], [nat_lit 3272]),
    ([nat_lit 3285, nat_lit 3274], [nat_lit 3275]),
    ([nat_lit 3271, nat_lit 3266], [nat_lit 3275])]
  readingNorm := []
  marks := [nat_lit 3201, nat_lit 3260, nat_lit 3277, nat_lit 3270, nat_lit 3263, nat_lit 3298, nat_lit 3299, nat_lit 3276]
  noInherentVowel := false

end Nisaba.Data
