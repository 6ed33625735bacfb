import Verif.Model.Tables
/-! Generated by tools/gen_tables.py from
  nisaba/scripts/brahmic/data/Gujr/coda.textproto
  nisaba/scripts/brahmic/data/Gujr/consonant.textproto
  nisaba/scripts/brahmic/data/Gujr/uname_prefix.textproto
  nisaba/scripts/brahmic/data/Gujr/visual_rewrite.textproto
  nisaba/scripts/brahmic/data/Gujr/vowel.textproto
  nisaba/scripts/brahmic/data/Gujr/vowel_sign.textproto
  nisaba/scripts/brahmic/data/coda.textproto
  nisaba/scripts/brahmic/data/consonant.textproto
  nisaba/scripts/brahmic/data/inherent_vowel.textproto
  nisaba/scripts/brahmic/data/preserve.textproto
  nisaba/scripts/brahmic/data/standalone.textproto
  nisaba/scripts/brahmic/data/virama.textproto
  nisaba/scripts/brahmic/data/vowel.textproto
  nisaba/scripts/brahmic/data/vowel_sign.textproto
-/
namespace Nisaba.Data

def gujr : BrahmicData where
  name := "Gujr"
  consonant := [([nat_lit 2741], [nat_lit 118]),
    ([nat_lit 2709, nat_lit 2748], [nat_lit 113]),
    ([nat_lit 2710, nat_lit 2748], [nat_lit 120]),
    ([nat_lit 2716, nat_lit 2748], [nat_lit 122]),
    ([nat_lit 2731, nat_lit 2748], [nat_lit 102]),
    ([nat_lit 2739], [nat_lit 7735]),
    ([nat_lit 2743], [nat_lit 7779]),
    ([nat_lit 2711, nat_lit 2748], [nat_lit 289]),
    ([nat_lit 2709], [nat_lit 107]),
    ([nat_lit 2710], [nat_lit 107, nat_lit 688]),
    ([nat_lit 2711], [nat_lit 103]),
    ([nat_lit 2712], [nat_lit 103, nat_lit 688]),
    ([nat_lit 2713], [nat_lit 7749]),
    ([nat_lit 2714], [nat_lit 99]),
    ([nat_lit 2715], [nat_lit 99, nat_lit 688]),
    ([nat_lit 2716], [nat_lit 106]),
    ([nat_lit 2717], [nat_lit 106, nat_lit 688]),
    ([nat_lit 2718], [nat_lit 241]),
    ([nat_lit 2719], [nat_lit 7789]),
    ([nat_lit 2720], [nat_lit 7789, nat_lit 688]),
    ([nat_lit 2721], [nat_lit 7693]),
    ([nat_lit 2722], [nat_lit 7693, nat_lit 688]),
    ([nat_lit 2723], [nat_lit 7751]),
    ([nat_lit 2724], [nat_lit 116]),
    ([nat_lit 2725], [nat_lit 116, nat_lit 688]),
    ([nat_lit 2726], [nat_lit 100]),
    ([nat_lit 2727], [nat_lit 100, nat_lit 688]),
    ([nat_lit 2728], [nat_lit 110]),
    ([nat_lit 2730], [nat_lit 112]),
    ([nat_lit 2731], [nat_lit 112, nat_lit 688]),
    ([nat_lit 2732], [nat_lit 98]),
    ([nat_lit 2733], [nat_lit 98, nat_lit 688]),
    ([nat_lit 2734], [nat_lit 109]),
    ([nat_lit 2735], [nat_lit 121]),
    ([nat_lit 2736], [nat_lit 114]),
    ([nat_lit 2738], [nat_lit 108]),
    ([nat_lit 2742], [nat_lit 347]),
    ([nat_lit 2744], [nat_lit 115]),
    ([nat_lit 2745], [nat_lit 104])]
  deadConsonant := []
  subjoined := []
  vowelSign := [([nat_lit 2759], [nat_lit 275]),
    ([nat_lit 2763], [nat_lit 333]),
    ([nat_lit 2757], [nat_lit 234]),
    ([nat_lit 2761], [nat_lit 244]),
    ([nat_lit 2750], [nat_lit 257]),
    ([nat_lit 2751], [nat_lit 105]),
    ([nat_lit 2752], [nat_lit 299]),
    ([nat_lit 2753], [nat_lit 117]),
    ([nat_lit 2754], [nat_lit 363]),
    ([nat_lit 2755], [nat_lit 114, nat_lit 805]),
    ([nat_lit 2756], [nat_lit 114, nat_lit 805, nat_lit 772]),
    ([nat_lit 2786], [nat_lit 108, nat_lit 805]),
    ([nat_lit 2787], [nat_lit 108, nat_lit 805, nat_lit 772]),
    ([nat_lit 2760], [nat_lit 97, nat_lit 105]),
    ([nat_lit 2764], [nat_lit 97, nat_lit 117])]
  vowel := [([nat_lit 2703], [nat_lit 275]),
    ([nat_lit 2707], [nat_lit 333]),
    ([nat_lit 2701], [nat_lit 234]),
    ([nat_lit 2705], [nat_lit 244]),
    ([nat_lit 2693], [nat_lit 97]),
    ([nat_lit 2694], [nat_lit 257]),
    ([nat_lit 2695], [nat_lit 105]),
    ([nat_lit 2696], [nat_lit 299]),
    ([nat_lit 2697], [nat_lit 117]),
    ([nat_lit 2698], [nat_lit 363]),
    ([nat_lit 2699], [nat_lit 114, nat_lit 805]),
    ([nat_lit 2784], [nat_lit 114, nat_lit 805, nat_lit 772]),
    ([nat_lit 2700], [nat_lit 108, nat_lit 805]),
    ([nat_lit 2785], [nat_lit 108, nat_lit 805, nat_lit 772]),
    ([nat_lit 2704], [nat_lit 97, nat_lit 105]),
    ([nat_lit 2708], [nat_lit 97, nat_lit 117])]
  vowelLength := []
  coda := [([nat_lit 2689], [nat_lit 109, nat_lit 784]),
    ([nat_lit 2748], [nat_lit 721]),
    ([nat_lit 2690], [nat_lit 7745]),
    ([nat_lit 2689], [nat_lit 109, nat_lit 784]),
    ([nat_lit 2691], [nat_lit 7717]),
    ([nat_lit 2749], [nat_lit 8217])]
  standalone := [([nat_lit 2768], [nat_lit 245, nat_lit 109])]
  virama := [([nat_lit 2765], [nat_lit 2765])]
  inherent := [([nat_lit 97], [nat_lit 97])]
  accept := []
  preserve := [([nat_lit 2765, nat_lit 8204], [nat_lit 1114112])]
  nfc := []
  visualRewrite := [([nat_lit 2693, nat_lit 2750], [nat_lit 2694]),
    ([nat_lit 2693, nat_lit 2757], [nat_lit 2701]),
    ([nat_lit 2693, nat_lit 2759], [nat_lit 2703]),
    ([nat_lit 2693, nat_lit 2760], [nat_lit 2704]),
    ([nat_lit 2693, nat_lit 2761], [nat_lit 2705]),
    ([nat_lit 2693, nat_lit 2763], [nat_lit 2707]),
    ([nat_lit 2693, nat_lit 2750, nat_lit 2759], [nat_lit 2707]),
    ([nat_lit 2693, nat_lit 2764], [nat_lit 2708]),
    ([nat_lit 2693, nat_lit 2750, nat_lit 2760], [nat_lit 2708]),
    ([nat_lit 2757, nat_lit 2750], [nat_lit 2761]),
    ([nat_lit 2693, nat_lit 2750, nat_lit 2757], [nat_lit 2705]),
    ([nat_lit 2760, nat_lit 2759], [nat_lit 2760]),
    ([nat_lit 2761, nat_lit 2757], [nat_lit 2761]),
    ([nat_lit 2763, nat_lit 2759], [nat_lit 2763]),
    ([nat_lit 2764, nat_lit 2759], [nat_lit 2764]),
    ([nat_lit 2764, nat_lit 2760], [nat_lit 2764]),
    ([nat_lit 2751, nat_lit 2759], [nat_lit 2751]),
    ([nat_lit 2704, nat_lit 2759], [nat_lit 2704]),
    ([nat_lit 2707, nat_lit 2759], [nat_lit 2707]),
    ([nat_lit 2708, nat_lit 2759], [nat_lit 2708]),
    ([nat_lit 2704, nat_lit 2760], [nat_lit 2704]),
    ([nat_lit 2708, nat_lit 2760], [nat_lit 2708])]
  readingNorm := []
  marks := [nat_lit 2689, nat_lit 2748, nat_lit 2690, nat_lit 2765, nat_lit 2759, nat_lit 2757, nat_lit 2753, nat_lit 2754, nat_lit 2755, nat_lit 2756, nat_lit 2786, nat_lit 2787, nat_lit 2760]
  noInherentVowel := false

end Nisaba.Data
