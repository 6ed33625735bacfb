import Verif.Model.Tables
/-! Generated by tools/gen_tables.py from
  nisaba/scripts/brahmic/data/Mlym/accept.textproto
  nisaba/scripts/brahmic/data/Mlym/coda.textproto
  nisaba/scripts/brahmic/data/Mlym/consonant.textproto
  nisaba/scripts/brahmic/data/Mlym/dead_consonant.textproto
  nisaba/scripts/brahmic/data/Mlym/fixed.textproto
  nisaba/scripts/brahmic/data/Mlym/nfc.textproto
  nisaba/scripts/brahmic/data/Mlym/reading_norm.textproto
  nisaba/scripts/brahmic/data/Mlym/uname_prefix.textproto
  nisaba/scripts/brahmic/data/Mlym/visual_rewrite.textproto
  nisaba/scripts/brahmic/data/Mlym/vowel.textproto
  nisaba/scripts/brahmic/data/Mlym/vowel_sign.textproto
  nisaba/scripts/brahmic/data/coda.textproto
  nisaba/scripts/brahmic/data/consonant.textproto
  nisaba/scripts/brahmic/data/inherent_vowel.textproto
  nisaba/scripts/brahmic/data/preserve.textproto
  nisaba/scripts/brahmic/data/virama.textproto
  nisaba/scripts/brahmic/data/vowel.textproto
-/
namespace Nisaba.Data

def mlym : BrahmicData where
  name := "Mlym"
  consonant := [([nat_lit 3381], [nat_lit 118]),
    ([nat_lit 3386], [nat_lit 7791]),
    ([nat_lit 3369], [nat_lit 7753]),
    ([nat_lit 3377], [nat_lit 7775]),
    ([nat_lit 3379], [nat_lit 7735]),
    ([nat_lit 3380], [nat_lit 7739]),
    ([nat_lit 3383], [nat_lit 7779]),
    ([nat_lit 3349], [nat_lit 107]),
    ([nat_lit 3350], [nat_lit 107, nat_lit 688]),
    ([nat_lit 3351], [nat_lit 103]),
    ([nat_lit 3352], [nat_lit 103, nat_lit 688]),
    ([nat_lit 3353], [nat_lit 7749]),
    ([nat_lit 3354], [nat_lit 99]),
    ([nat_lit 3355], [nat_lit 99, nat_lit 688]),
    ([nat_lit 3356], [nat_lit 106]),
    ([nat_lit 3357], [nat_lit 106, nat_lit 688]),
    ([nat_lit 3358], [nat_lit 241]),
    ([nat_lit 3359], [nat_lit 7789]),
    ([nat_lit 3360], [nat_lit 7789, nat_lit 688]),
    ([nat_lit 3361], [nat_lit 7693]),
    ([nat_lit 3362], [nat_lit 7693, nat_lit 688]),
    ([nat_lit 3363], [nat_lit 7751]),
    ([nat_lit 3364], [nat_lit 116]),
    ([nat_lit 3365], [nat_lit 116, nat_lit 688]),
    ([nat_lit 3366], [nat_lit 100]),
    ([nat_lit 3367], [nat_lit 100, nat_lit 688]),
    ([nat_lit 3368], [nat_lit 110]),
    ([nat_lit 3370], [nat_lit 112]),
    ([nat_lit 3371], [nat_lit 112, nat_lit 688]),
    ([nat_lit 3372], [nat_lit 98]),
    ([nat_lit 3373], [nat_lit 98, nat_lit 688]),
    ([nat_lit 3374], [nat_lit 109]),
    ([nat_lit 3375], [nat_lit 121]),
    ([nat_lit 3376], [nat_lit 114]),
    ([nat_lit 3378], [nat_lit 108]),
    ([nat_lit 3382], [nat_lit 347]),
    ([nat_lit 3384], [nat_lit 115]),
    ([nat_lit 3385], [nat_lit 104])]
  deadConsonant := [([nat_lit 3455], [nat_lit 107, nat_lit 11823]),
    ([nat_lit 3450], [nat_lit 7751, nat_lit 11823]),
    ([nat_lit 3451], [nat_lit 110, nat_lit 11823]),
    ([nat_lit 3452], [nat_lit 7775, nat_lit 11823]),
    ([nat_lit 3453], [nat_lit 108, nat_lit 11823]),
    ([nat_lit 3454], [nat_lit 7735, nat_lit 11823])]
  subjoined := []
  vowelSign := [([nat_lit 3390], [nat_lit 257]),
    ([nat_lit 3391], [nat_lit 105]),
    ([nat_lit 3392], [nat_lit 299]),
    ([nat_lit 3393], [nat_lit 117]),
    ([nat_lit 3394], [nat_lit 363]),
    ([nat_lit 3398], [nat_lit 101]),
    ([nat_lit 3399], [nat_lit 275]),
    ([nat_lit 3402], [nat_lit 111]),
    ([nat_lit 3403], [nat_lit 333]),
    ([nat_lit 3400], [nat_lit 97, nat_lit 105]),
    ([nat_lit 3415], [nat_lit 97, nat_lit 117]),
    ([nat_lit 3404], [nat_lit 97, nat_lit 117, nat_lit 815]),
    ([nat_lit 3395], [nat_lit 114, nat_lit 805]),
    ([nat_lit 3396], [nat_lit 114, nat_lit 805, nat_lit 772]),
    ([nat_lit 3426], [nat_lit 108, nat_lit 805]),
    ([nat_lit 3427], [nat_lit 108, nat_lit 805, nat_lit 772])]
  vowel := [([nat_lit 3342], [nat_lit 101]),
    ([nat_lit 3346], [nat_lit 111]),
    ([nat_lit 3343], [nat_lit 275]),
    ([nat_lit 3347], [nat_lit 333]),
    ([nat_lit 3333], [nat_lit 97]),
    ([nat_lit 3334], [nat_lit 257]),
    ([nat_lit 3335], [nat_lit 105]),
    ([nat_lit 3336], [nat_lit 299]),
    ([nat_lit 3337], [nat_lit 117]),
    ([nat_lit 3338], [nat_lit 363]),
    ([nat_lit 3339], [nat_lit 114, nat_lit 805]),
    ([nat_lit 3424], [nat_lit 114, nat_lit 805, nat_lit 772]),
    ([nat_lit 3340], [nat_lit 108, nat_lit 805]),
    ([nat_lit 3425], [nat_lit 108, nat_lit 805, nat_lit 772]),
    ([nat_lit 3344], [nat_lit 97, nat_lit 105]),
    ([nat_lit 3348], [nat_lit 97, nat_lit 117])]
  vowelLength := []
  coda := [([nat_lit 3406], [nat_lit 114, nat_lit 11823]),
    ([nat_lit 3330], [nat_lit 7745]),
    ([nat_lit 3329], [nat_lit 109, nat_lit 784]),
    ([nat_lit 3331], [nat_lit 7717]),
    ([nat_lit 3389], [nat_lit 8217])]
  standalone := []
  virama := [([nat_lit 3405], [nat_lit 3405])]
  inherent := [([nat_lit 97], [nat_lit 97])]
  accept := [([nat_lit 3451, nat_lit 3405], [nat_lit 3451, nat_lit 3405]),
    ([nat_lit 3451, nat_lit 3398], [nat_lit 3451, nat_lit 3398]),
    ([nat_lit 3451, nat_lit 3399], [nat_lit 3451, nat_lit 3399]),
    ([nat_lit 3393, nat_lit 3405], [nat_lit 3393, nat_lit 3405]),
    ([nat_lit 3333, nat_lit 3405], [nat_lit 3333, nat_lit 3405]),
    ([nat_lit 3390, nat_lit 3330], [nat_lit 3390, nat_lit 3330]),
    ([nat_lit 3453], [nat_lit 3453])]
  preserve := [([nat_lit 3405, nat_lit 8204], [nat_lit 1114112])]
  nfc := [([nat_lit 3398, nat_lit 3390], [nat_lit 3402]),
    ([nat_lit 3399, nat_lit 3390], [nat_lit 3403]),
    ([nat_lit 3398, nat_lit 3415], [nat_lit 3404])]
  visualRewrite := [([nat_lit 3335, nat_lit 3415], [nat_lit 3336]),
    ([nat_lit 3337, nat_lit 3415], [nat_lit 3338]),
    ([nat_lit 3342, nat_lit 3398], [nat_lit 3344]),
    ([nat_lit 3346, nat_lit 3390], [nat_lit 3347]),
    ([nat_lit 3346, nat_lit 3415], [nat_lit 3348]),
    ([nat_lit 3363, nat_lit 3405, nat_lit 8205], [nat_lit 3450]),
    ([nat_lit 3368, nat_lit 3405, nat_lit 8205], [nat_lit 3451]),
    ([nat_lit 3376, nat_lit 3405, nat_lit 8205], [nat_lit 3452]),
    ([nat_lit 3378, nat_lit 3405, nat_lit 8205], [nat_lit 3453]),
    ([nat_lit 3379, nat_lit 3405, nat_lit 8205], [nat_lit 3454]),
    ([nat_lit 3349, nat_lit 3405, nat_lit 8205], [nat_lit 3455]),
    ([nat_lit 3368, nat_lit 3405, nat_lit 3377], [nat_lit 3451, nat_lit 3405, nat_lit 3377]),
    ([nat_lit 3368, nat_lit 3405, nat_lit 8205, nat_lit 3377], [nat_lit 3451, nat_lit 3405, nat_lit 3377]),
    ([nat_lit 3398, nat_lit 3398], [nat_lit 3400]),
    ([nat_lit 3390, nat_lit 3398], [nat_lit 3402]),
    ([nat_lit 3390, nat_lit 3399], [nat_lit 3403]),
    ([nat_lit 3415, nat_lit 3398], [nat_lit 3404])]
  readingNorm := [([nat_lit 3404], [nat_lit 3415]),
    ([nat_lit 3393, nat_lit 3405], [nat_lit 3405]),
    ([nat_lit 3406, nat_lit 3375, nat_lit 3405, nat_lit 3375], [nat_lit 3376, nat_lit 3405, nat_lit 3375]),
    ([nat_lit 3406], [nat_lit 3452])]
  marks := [nat_lit 3405, nat_lit 3393, nat_lit 3329, nat_lit 3394, nat_lit 3395, nat_lit 3396, nat_lit 3426, nat_lit 3427]
  noInherentVowel := false

end Nisaba.Data
