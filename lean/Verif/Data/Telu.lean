import Verif.Model.Tables
/-! Generated by tools/gen_tables.py from
  nisaba/scripts/brahmic/data/Telu/coda.textproto
  nisaba/scripts/brahmic/data/Telu/consonant.textproto
  nisaba/scripts/brahmic/data/Telu/nfc.textproto
  nisaba/scripts/brahmic/data/Telu/uname_prefix.textproto
  nisaba/scripts/brahmic/data/Telu/visual_rewrite.textproto
  nisaba/scripts/brahmic/data/Telu/vowel.textproto
  nisaba/scripts/brahmic/data/Telu/vowel_sign.textproto
  nisaba/scripts/brahmic/data/coda.textproto
  nisaba/scripts/brahmic/data/consonant.textproto
  nisaba/scripts/brahmic/data/inherent_vowel.textproto
  nisaba/scripts/brahmic/data/preserve.textproto
  nisaba/scripts/brahmic/data/virama.textproto
  nisaba/scripts/brahmic/data/vowel.textproto
  nisaba/scripts/brahmic/data/vowel_sign.textproto
-/
namespace Nisaba.Data

def telu : BrahmicData where
  name := "Telu"
  consonant := [([nat_lit 3125], [nat_lit 118]),
    ([nat_lit 3161], [nat_lit 122]),
    ([nat_lit 3160], [nat_lit 265]),
    ([nat_lit 3121], [nat_lit 7775]),
    ([nat_lit 3123], [nat_lit 7735]),
    ([nat_lit 3124], [nat_lit 7739]),
    ([nat_lit 3127], [nat_lit 7779]),
    ([nat_lit 3093], [nat_lit 107]),
    ([nat_lit 3094], [nat_lit 107, nat_lit 688]),
    ([nat_lit 3095], [nat_lit 103]),
    ([nat_lit 3096], [nat_lit 103, nat_lit 688]),
    ([nat_lit 3097], [nat_lit 7749]),
    ([nat_lit 3098], [nat_lit 99]),
    ([nat_lit 3099], [nat_lit 99, nat_lit 688]),
    ([nat_lit 3100], [nat_lit 106]),
    ([nat_lit 3101], [nat_lit 106, nat_lit 688]),
    ([nat_lit 3102], [nat_lit 241]),
    ([nat_lit 3103], [nat_lit 7789]),
    ([nat_lit 3104], [nat_lit 7789, nat_lit 688]),
    ([nat_lit 3105], [nat_lit 7693]),
    ([nat_lit 3106], [nat_lit 7693, nat_lit 688]),
    ([nat_lit 3107], [nat_lit 7751]),
    ([nat_lit 3108], [nat_lit 116]),
    ([nat_lit 3109], [nat_lit 116, nat_lit 688]),
    ([nat_lit 3110], [nat_lit 100]),
    ([nat_lit 3111], [nat_lit 100, nat_lit 688]),
    ([nat_lit 3112], [nat_lit 110]),
    ([nat_lit 3114], [nat_lit 112]),
    ([nat_lit 3115], [nat_lit 112, nat_lit 688]),
    ([nat_lit 3116], [nat_lit 98]),
    ([nat_lit 3117], [nat_lit 98, nat_lit 688]),
    ([nat_lit 3118], [nat_lit 109]),
    ([nat_lit 3119], [nat_lit 121]),
    ([nat_lit 3120], [nat_lit 114]),
    ([nat_lit 3122], [nat_lit 108]),
    ([nat_lit 3126], [nat_lit 347]),
    ([nat_lit 3128], [nat_lit 115]),
    ([nat_lit 3129], [nat_lit 104])]
  deadConsonant := []
  subjoined := []
  vowelSign := [([nat_lit 3142], [nat_lit 101]),
    ([nat_lit 3146], [nat_lit 111]),
    ([nat_lit 3143], [nat_lit 275]),
    ([nat_lit 3147], [nat_lit 333]),
    ([nat_lit 3134], [nat_lit 257]),
    ([nat_lit 3135], [nat_lit 105]),
    ([nat_lit 3136], [nat_lit 299]),
    ([nat_lit 3137], [nat_lit 117]),
    ([nat_lit 3138], [nat_lit 363]),
    ([nat_lit 3139], [nat_lit 114, nat_lit 805]),
    ([nat_lit 3140], [nat_lit 114, nat_lit 805, nat_lit 772]),
    ([nat_lit 3170], [nat_lit 108, nat_lit 805]),
    ([nat_lit 3171], [nat_lit 108, nat_lit 805, nat_lit 772]),
    ([nat_lit 3144], [nat_lit 97, nat_lit 105]),
    ([nat_lit 3148], [nat_lit 97, nat_lit 117])]
  vowel := [([nat_lit 3086], [nat_lit 101]),
    ([nat_lit 3090], [nat_lit 111]),
    ([nat_lit 3087], [nat_lit 275]),
    ([nat_lit 3091], [nat_lit 333]),
    ([nat_lit 3077], [nat_lit 97]),
    ([nat_lit 3078], [nat_lit 257]),
    ([nat_lit 3079], [nat_lit 105]),
    ([nat_lit 3080], [nat_lit 299]),
    ([nat_lit 3081], [nat_lit 117]),
    ([nat_lit 3082], [nat_lit 363]),
    ([nat_lit 3083], [nat_lit 114, nat_lit 805]),
    ([nat_lit 3168], [nat_lit 114, nat_lit 805, nat_lit 772]),
    ([nat_lit 3084], [nat_lit 108, nat_lit 805]),
    ([nat_lit 3169], [nat_lit 108, nat_lit 805, nat_lit 772]),
    ([nat_lit 3088], [nat_lit 97, nat_lit 105]),
    ([nat_lit 3092], [nat_lit 97, nat_lit 117])]
  vowelLength := []
  coda := [([nat_lit 3072], [nat_lit 110, nat_lit 784]),
    ([nat_lit 3074], [nat_lit 7745]),
    ([nat_lit 3073], [nat_lit 109, nat_lit 784]),
    ([nat_lit 3075], [nat_lit 7717]),
    ([nat_lit 3133], [nat_lit 8217])]
  standalone := []
  virama := [([nat_lit 3149], [nat_lit 3149])]
  inherent := [([nat_lit 97], [nat_lit 97])]
  accept := []
  preserve := [([nat_lit 3149, nat_lit 8204], [nat_lit 1114112])]
  nfc := [([nat_lit 3142, nat_lit 3158], [nat_lit 3144])]
  visualRewrite := [([nat_lit 3090, nat_lit 3157], [nat_lit 3091]),
    ([nat_lit 3090, nat_lit 3148], [nat_lit 3092]),
    ([nat_lit 3135, nat_lit 3157], [nat_lit 3136]),
    ([nat_lit 3142, nat_lit 3157], [nat_lit 3143]),
    ([nat_lit 3146, nat_lit 3157], [nat_lit 3147]),
    ([nat_lit 3116, nat_lit 3137, nat_lit 3137], [nat_lit 3083])]
  readingNorm := []
  marks := [nat_lit 3072, nat_lit 3149, nat_lit 3142, nat_lit 3146, nat_lit 3143, nat_lit 3147, nat_lit 3134, nat_lit 3135, nat_lit 3136, nat_lit 3170, nat_lit 3171, nat_lit 3144, nat_lit 3148, nat_lit 3158, nat_lit 3157]
  noInherentVowel := false

end Nisaba.Data
