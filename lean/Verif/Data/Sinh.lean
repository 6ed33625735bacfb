import Verif.Model.Tables
/-! Generated by tools/gen_tables.py from
  nisaba/scripts/brahmic/data/Sinh/coda.textproto
  nisaba/scripts/brahmic/data/Sinh/consonant.textproto
  nisaba/scripts/brahmic/data/Sinh/nfc.textproto
  nisaba/scripts/brahmic/data/Sinh/preserve.textproto
  nisaba/scripts/brahmic/data/Sinh/uname_prefix.textproto
  nisaba/scripts/brahmic/data/Sinh/virama.textproto
  nisaba/scripts/brahmic/data/Sinh/visual_rewrite.textproto
  nisaba/scripts/brahmic/data/Sinh/vowel.textproto
  nisaba/scripts/brahmic/data/Sinh/vowel_sign.textproto
  nisaba/scripts/brahmic/data/inherent_vowel.textproto
-/
namespace Nisaba.Data

def sinh : BrahmicData where
  name := "Sinh"
  consonant := [([nat_lit 3482], [nat_lit 107]),
    ([nat_lit 3483], [nat_lit 107, nat_lit 688]),
    ([nat_lit 3484], [nat_lit 103]),
    ([nat_lit 3485], [nat_lit 103, nat_lit 688]),
    ([nat_lit 3486], [nat_lit 7749]),
    ([nat_lit 3487], [nat_lit 7505, nat_lit 103]),
    ([nat_lit 3488], [nat_lit 99]),
    ([nat_lit 3489], [nat_lit 99, nat_lit 688]),
    ([nat_lit 3490], [nat_lit 106]),
    ([nat_lit 3491], [nat_lit 106, nat_lit 688]),
    ([nat_lit 3492], [nat_lit 241]),
    ([nat_lit 3494], [nat_lit 7505, nat_lit 106]),
    ([nat_lit 3495], [nat_lit 7789]),
    ([nat_lit 3496], [nat_lit 7789, nat_lit 688]),
    ([nat_lit 3497], [nat_lit 7693]),
    ([nat_lit 3498], [nat_lit 7693, nat_lit 688]),
    ([nat_lit 3499], [nat_lit 7751]),
    ([nat_lit 3500], [nat_lit 7505, nat_lit 7693]),
    ([nat_lit 3501], [nat_lit 116]),
    ([nat_lit 3502], [nat_lit 116, nat_lit 688]),
    ([nat_lit 3503], [nat_lit 100]),
    ([nat_lit 3504], [nat_lit 100, nat_lit 688]),
    ([nat_lit 3505], [nat_lit 110]),
    ([nat_lit 3507], [nat_lit 7505, nat_lit 100]),
    ([nat_lit 3508], [nat_lit 112]),
    ([nat_lit 3509], [nat_lit 112, nat_lit 688]),
    ([nat_lit 3510], [nat_lit 98]),
    ([nat_lit 3511], [nat_lit 98, nat_lit 688]),
    ([nat_lit 3512], [nat_lit 109]),
    ([nat_lit 3513], [nat_lit 7505, nat_lit 98]),
    ([nat_lit 3514], [nat_lit 121]),
    ([nat_lit 3515], [nat_lit 114]),
    ([nat_lit 3517], [nat_lit 108]),
    ([nat_lit 3525], [nat_lit 7735]),
    ([nat_lit 3520], [nat_lit 118]),
    ([nat_lit 3521], [nat_lit 347]),
    ([nat_lit 3522], [nat_lit 7779]),
    ([nat_lit 3523], [nat_lit 115]),
    ([nat_lit 3524], [nat_lit 104]),
    ([nat_lit 3526], [nat_lit 102]),
    ([nat_lit 3493], [nat_lit 7505, nat_lit 496])]
  deadConsonant := []
  subjoined := []
  vowelSign := [([nat_lit 3535], [nat_lit 257]),
    ([nat_lit 3536], [nat_lit 230]),
    ([nat_lit 3537], [nat_lit 483]),
    ([nat_lit 3538], [nat_lit 105]),
    ([nat_lit 3539], [nat_lit 299]),
    ([nat_lit 3540], [nat_lit 117]),
    ([nat_lit 3542], [nat_lit 363]),
    ([nat_lit 3544], [nat_lit 114, nat_lit 805]),
    ([nat_lit 3570], [nat_lit 114, nat_lit 805, nat_lit 772]),
    ([nat_lit 3551], [nat_lit 108, nat_lit 805]),
    ([nat_lit 3571], [nat_lit 108, nat_lit 805, nat_lit 772]),
    ([nat_lit 3545], [nat_lit 101]),
    ([nat_lit 3546], [nat_lit 275]),
    ([nat_lit 3547], [nat_lit 97, nat_lit 105]),
    ([nat_lit 3548], [nat_lit 111]),
    ([nat_lit 3549], [nat_lit 333]),
    ([nat_lit 3550], [nat_lit 97, nat_lit 117])]
  vowel := [([nat_lit 3461], [nat_lit 97]),
    ([nat_lit 3462], [nat_lit 257]),
    ([nat_lit 3463], [nat_lit 230]),
    ([nat_lit 3464], [nat_lit 483]),
    ([nat_lit 3465], [nat_lit 105]),
    ([nat_lit 3466], [nat_lit 299]),
    ([nat_lit 3467], [nat_lit 117]),
    ([nat_lit 3468], [nat_lit 363]),
    ([nat_lit 3469], [nat_lit 114, nat_lit 805]),
    ([nat_lit 3470], [nat_lit 114, nat_lit 805, nat_lit 772]),
    ([nat_lit 3471], [nat_lit 108, nat_lit 805]),
    ([nat_lit 3472], [nat_lit 108, nat_lit 805, nat_lit 772]),
    ([nat_lit 3473], [nat_lit 101]),
    ([nat_lit 3474], [nat_lit 275]),
    ([nat_lit 3475], [nat_lit 97, nat_lit 105]),
    ([nat_lit 3476], [nat_lit 111]),
    ([nat_lit 3477], [nat_lit 333]),
    ([nat_lit 3478], [nat_lit 97, nat_lit 117])]
  vowelLength := []
  coda := [([nat_lit 3458], [nat_lit 7745]),
    ([nat_lit 3459], [nat_lit 7717])]
  standalone := []
  virama := [([nat_lit 3530], [nat_lit 3530])]
  inherent := [([nat_lit 97], [nat_lit 97])]
  accept := []
  preserve := [([nat_lit 3530, nat_lit 8205], [nat_lit 1114114]),
    ([nat_lit 8205, nat_lit 3530], [nat_lit 1114113])]
  nfc := [([nat_lit 3545, nat_lit 3530], [nat_lit 3546]),
    ([nat_lit 3545, nat_lit 3535], [nat_lit 3548]),
    ([nat_lit 3548, nat_lit 3530], [nat_lit 3549]),
    ([nat_lit 3545, nat_lit 3535, nat_lit 3530], [nat_lit 3549]),
    ([nat_lit 3545, nat_lit 3551], [nat_lit 3550])]
  visualRewrite := [([nat_lit 3461, nat_lit 3535], [nat_lit 3462]),
    ([nat_lit 3461, nat_lit 3536], [nat_lit 3463]),
    ([nat_lit 3461, nat_lit 3537], [nat_lit 3464]),
    ([nat_lit 3467, nat_lit 3551], [nat_lit 3468]),
    ([nat_lit 3469, nat_lit 3544], [nat_lit 3470]),
    ([nat_lit 3471, nat_lit 3551], [nat_lit 3472]),
    ([nat_lit 3473, nat_lit 3530], [nat_lit 3474]),
    ([nat_lit 3473, nat_lit 3545], [nat_lit 3475]),
    ([nat_lit 3476, nat_lit 3551], [nat_lit 3478]),
    ([nat_lit 3545, nat_lit 3545], [nat_lit 3547]),
    ([nat_lit 3544, nat_lit 3544], [nat_lit 3570]),
    ([nat_lit 8205, nat_lit 3530, nat_lit 8205], [nat_lit 3530, nat_lit 8205]),
    ([nat_lit 3538, nat_lit 8205, nat_lit 3530, nat_lit 8205, nat_lit 3515], [nat_lit 3530, nat_lit 8205, nat_lit 3515, nat_lit 3538]),
    ([nat_lit 3539, nat_lit 8205, nat_lit 3530, nat_lit 8205, nat_lit 3515], [nat_lit 3530, nat_lit 8205, nat_lit 3515, nat_lit 3539]),
    ([nat_lit 3546, nat_lit 8205, nat_lit 3530, nat_lit 8205, nat_lit 3515], [nat_lit 3530, nat_lit 8205, nat_lit 3515, nat_lit 3546])]
  readingNorm := []
  marks := [nat_lit 3530, nat_lit 3538, nat_lit 3539, nat_lit 3540, nat_lit 3542]
  noInherentVowel := false

end Nisaba.Data
