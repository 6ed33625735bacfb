import Verif.Model.Tables
/-! Generated by tools/gen_tables.py from
  nisaba/scripts/brahmic/data/Orya/coda.textproto
  nisaba/scripts/brahmic/data/Orya/consonant.textproto
  nisaba/scripts/brahmic/data/Orya/nfc.textproto
  nisaba/scripts/brahmic/data/Orya/uname_prefix.textproto
  nisaba/scripts/brahmic/data/Orya/visual_rewrite.textproto
  nisaba/scripts/brahmic/data/Orya/vowel.textproto
  nisaba/scripts/brahmic/data/Orya/vowel_sign.textproto
  nisaba/scripts/brahmic/data/coda.textproto
  nisaba/scripts/brahmic/data/consonant.textproto
  nisaba/scripts/brahmic/data/inherent_vowel.textproto
  nisaba/scripts/brahmic/data/preserve.textproto
  nisaba/scripts/brahmic/data/virama.textproto
  nisaba/scripts/brahmic/data/vowel.textproto
  nisaba/scripts/brahmic/data/vowel_sign.textproto
-/
namespace Nisaba.Data

def orya : BrahmicData where
  name := "Orya"
  consonant := [([nat_lit 2911], [nat_lit 7823]),
    ([nat_lit 2867], [nat_lit 7735]),
    ([nat_lit 2869], [nat_lit 118]),
    ([nat_lit 2929], [nat_lit 119]),
    ([nat_lit 2871], [nat_lit 7779]),
    ([nat_lit 2849, nat_lit 2876], [nat_lit 7771]),
    ([nat_lit 2850, nat_lit 2876], [nat_lit 7771, nat_lit 688]),
    ([nat_lit 2837], [nat_lit 107]),
    ([nat_lit 2838], [nat_lit 107, nat_lit 688]),
    ([nat_lit 2839], [nat_lit 103]),
    ([nat_lit 2840], [nat_lit 103, nat_lit 688]),
    ([nat_lit 2841], [nat_lit 7749]),
    ([nat_lit 2842], [nat_lit 99]),
    ([nat_lit 2843], [nat_lit 99, nat_lit 688]),
    ([nat_lit 2844], [nat_lit 106]),
    ([nat_lit 2845], [nat_lit 106, nat_lit 688]),
    ([nat_lit 2846], [nat_lit 241]),
    ([nat_lit 2847], [nat_lit 7789]),
    ([nat_lit 2848], [nat_lit 7789, nat_lit 688]),
    ([nat_lit 2849], [nat_lit 7693]),
    ([nat_lit 2850], [nat_lit 7693, nat_lit 688]),
    ([nat_lit 2851], [nat_lit 7751]),
    ([nat_lit 2852], [nat_lit 116]),
    ([nat_lit 2853], [nat_lit 116, nat_lit 688]),
    ([nat_lit 2854], [nat_lit 100]),
    ([nat_lit 2855], [nat_lit 100, nat_lit 688]),
    ([nat_lit 2856], [nat_lit 110]),
    ([nat_lit 2858], [nat_lit 112]),
    ([nat_lit 2859], [nat_lit 112, nat_lit 688]),
    ([nat_lit 2860], [nat_lit 98]),
    ([nat_lit 2861], [nat_lit 98, nat_lit 688]),
    ([nat_lit 2862], [nat_lit 109]),
    ([nat_lit 2863], [nat_lit 121]),
    ([nat_lit 2864], [nat_lit 114]),
    ([nat_lit 2866], [nat_lit 108]),
    ([nat_lit 2870], [nat_lit 347]),
    ([nat_lit 2872], [nat_lit 115]),
    ([nat_lit 2873], [nat_lit 104])]
  deadConsonant := []
  subjoined := []
  vowelSign := [([nat_lit 2887], [nat_lit 275]),
    ([nat_lit 2891], [nat_lit 333]),
    ([nat_lit 2878], [nat_lit 257]),
    ([nat_lit 2879], [nat_lit 105]),
    ([nat_lit 2880], [nat_lit 299]),
    ([nat_lit 2881], [nat_lit 117]),
    ([nat_lit 2882], [nat_lit 363]),
    ([nat_lit 2883], [nat_lit 114, nat_lit 805]),
    ([nat_lit 2884], [nat_lit 114, nat_lit 805, nat_lit 772]),
    ([nat_lit 2914], [nat_lit 108, nat_lit 805]),
    ([nat_lit 2915], [nat_lit 108, nat_lit 805, nat_lit 772]),
    ([nat_lit 2888], [nat_lit 97, nat_lit 105]),
    ([nat_lit 2892], [nat_lit 97, nat_lit 117])]
  vowel := [([nat_lit 2831], [nat_lit 275]),
    ([nat_lit 2835], [nat_lit 333]),
    ([nat_lit 2821], [nat_lit 97]),
    ([nat_lit 2822], [nat_lit 257]),
    ([nat_lit 2823], [nat_lit 105]),
    ([nat_lit 2824], [nat_lit 299]),
    ([nat_lit 2825], [nat_lit 117]),
    ([nat_lit 2826], [nat_lit 363]),
    ([nat_lit 2827], [nat_lit 114, nat_lit 805]),
    ([nat_lit 2912], [nat_lit 114, nat_lit 805, nat_lit 772]),
    ([nat_lit 2828], [nat_lit 108, nat_lit 805]),
    ([nat_lit 2913], [nat_lit 108, nat_lit 805, nat_lit 772]),
    ([nat_lit 2832], [nat_lit 97, nat_lit 105]),
    ([nat_lit 2836], [nat_lit 97, nat_lit 117])]
  vowelLength := []
  coda := [([nat_lit 2817], [nat_lit 109, nat_lit 784]),
    ([nat_lit 2876], [nat_lit 721]),
    ([nat_lit 2818], [nat_lit 7745]),
    ([nat_lit 2817], [nat_lit 109, nat_lit 784]),
    ([nat_lit 2819], [nat_lit 7717]),
    ([nat_lit 2877], [nat_lit 8217])]
  standalone := []
  virama := [([nat_lit 2893], [nat_lit 2893])]
  inherent := [([nat_lit 97], [nat_lit 97])]
  accept := []
  preserve := [([nat_lit 2893, nat_lit 8204], [nat_lit 1114112])]
  nfc := [([nat_lit 2887, nat_lit 2902], [nat_lit 2888]),
    ([nat_lit 2887, nat_lit 2878], [nat_lit 2891]),
    ([nat_lit 2887, nat_lit 2903], [nat_lit 2892]),
    ([nat_lit 2908], [nat_lit 2849, nat_lit 2876]),
    ([nat_lit 2909], [nat_lit 2850, nat_lit 2876])]
  visualRewrite := [([nat_lit 2821, nat_lit 2878], [nat_lit 2822]),
    ([nat_lit 2831, nat_lit 2903], [nat_lit 2832]),
    ([nat_lit 2835, nat_lit 2903], [nat_lit 2836]),
    ([nat_lit 2835, nat_lit 2893, nat_lit 2860], [nat_lit 2929]),
    ([nat_lit 2835, nat_lit 2893, nat_lit 2929], [nat_lit 2929])]
  readingNorm := []
  marks := [nat_lit 2817, nat_lit 2876, nat_lit 2893, nat_lit 2879, nat_lit 2881, nat_lit 2882, nat_lit 2883, nat_lit 2884, nat_lit 2914, nat_lit 2915, nat_lit 2902]
  noInherentVowel := false

end Nisaba.Data
