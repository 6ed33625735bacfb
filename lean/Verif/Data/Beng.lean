import Verif.Model.Tables
/-! Generated by tools/gen_tables.py from
  nisaba/scripts/brahmic/data/Beng/consonant.textproto
  nisaba/scripts/brahmic/data/Beng/dead_consonant.textproto
  nisaba/scripts/brahmic/data/Beng/nfc.textproto
  nisaba/scripts/brahmic/data/Beng/preserve.textproto
  nisaba/scripts/brahmic/data/Beng/reading_norm.textproto
  nisaba/scripts/brahmic/data/Beng/sat/vowel.textproto
  nisaba/scripts/brahmic/data/Beng/sat/vowel_sign.textproto
  nisaba/scripts/brahmic/data/Beng/trp/vowel.textproto
  nisaba/scripts/brahmic/data/Beng/uname_prefix.textproto
  nisaba/scripts/brahmic/data/Beng/visual_rewrite.textproto
  nisaba/scripts/brahmic/data/Beng/vowel.textproto
  nisaba/scripts/brahmic/data/Beng/vowel_sign.textproto
  nisaba/scripts/brahmic/data/coda.textproto
  nisaba/scripts/brahmic/data/consonant.textproto
  nisaba/scripts/brahmic/data/inherent_vowel.textproto
  nisaba/scripts/brahmic/data/preserve.textproto
  nisaba/scripts/brahmic/data/virama.textproto
  nisaba/scripts/brahmic/data/vowel.textproto
  nisaba/scripts/brahmic/data/vowel_sign.textproto
-/
namespace Nisaba.Data

def beng : BrahmicData where
  name := "Beng"
  consonant := [([nat_lit 2545], [nat_lit 118]),
    ([nat_lit 2453, nat_lit 2492], [nat_lit 113]),
    ([nat_lit 2454, nat_lit 2492], [nat_lit 120]),
    ([nat_lit 2460, nat_lit 2492], [nat_lit 122]),
    ([nat_lit 2475, nat_lit 2492], [nat_lit 102]),
    ([nat_lit 2544], [nat_lit 633]),
    ([nat_lit 2487], [nat_lit 7779]),
    ([nat_lit 2455, nat_lit 2492], [nat_lit 289]),
    ([nat_lit 2465, nat_lit 2492], [nat_lit 7771]),
    ([nat_lit 2466, nat_lit 2492], [nat_lit 7771, nat_lit 688]),
    ([nat_lit 2479, nat_lit 2492], [nat_lit 7823]),
    ([nat_lit 2480, nat_lit 8205, nat_lit 2509, nat_lit 2479], [nat_lit 114, nat_lit 7929]),
    ([nat_lit 2453], [nat_lit 107]),
    ([nat_lit 2454], [nat_lit 107, nat_lit 688]),
    ([nat_lit 2455], [nat_lit 103]),
    ([nat_lit 2456], [nat_lit 103, nat_lit 688]),
    ([nat_lit 2457], [nat_lit 7749]),
    ([nat_lit 2458], [nat_lit 99]),
    ([nat_lit 2459], [nat_lit 99, nat_lit 688]),
    ([nat_lit 2460], [nat_lit 106]),
    ([nat_lit 2461], [nat_lit 106, nat_lit 688]),
    ([nat_lit 2462], [nat_lit 241]),
    ([nat_lit 2463], [nat_lit 7789]),
    ([nat_lit 2464], [nat_lit 7789, nat_lit 688]),
    ([nat_lit 2465], [nat_lit 7693]),
    ([nat_lit 2466], [nat_lit 7693, nat_lit 688]),
    ([nat_lit 2467], [nat_lit 7751]),
    ([nat_lit 2468], [nat_lit 116]),
    ([nat_lit 2469], [nat_lit 116, nat_lit 688]),
    ([nat_lit 2470], [nat_lit 100]),
    ([nat_lit 2471], [nat_lit 100, nat_lit 688]),
    ([nat_lit 2472], [nat_lit 110]),
    ([nat_lit 2474], [nat_lit 112]),
    ([nat_lit 2475], [nat_lit 112, nat_lit 688]),
    ([nat_lit 2476], [nat_lit 98]),
    ([nat_lit 2477], [nat_lit 98, nat_lit 688]),
    ([nat_lit 2478], [nat_lit 109]),
    ([nat_lit 2479], [nat_lit 121]),
    ([nat_lit 2480], [nat_lit 114]),
    ([nat_lit 2482], [nat_lit 108]),
    ([nat_lit 2486], [nat_lit 347]),
    ([nat_lit 2488], [nat_lit 115]),
    ([nat_lit 2489], [nat_lit 104])]
  deadConsonant := [([nat_lit 2510], [nat_lit 116, nat_lit 11823])]
  subjoined := []
  vowelSign := [([nat_lit 2503], [nat_lit 275]),
    ([nat_lit 2507], [nat_lit 333]),
    ([nat_lit 2494], [nat_lit 257]),
    ([nat_lit 2495], [nat_lit 105]),
    ([nat_lit 2496], [nat_lit 299]),
    ([nat_lit 2497], [nat_lit 117]),
    ([nat_lit 2498], [nat_lit 363]),
    ([nat_lit 2499], [nat_lit 114, nat_lit 805]),
    ([nat_lit 2500], [nat_lit 114, nat_lit 805, nat_lit 772]),
    ([nat_lit 2530], [nat_lit 108, nat_lit 805]),
    ([nat_lit 2531], [nat_lit 108, nat_lit 805, nat_lit 772]),
    ([nat_lit 2504], [nat_lit 97, nat_lit 105]),
    ([nat_lit 2508], [nat_lit 97, nat_lit 117]),
    ([nat_lit 2494, nat_lit 2492], [nat_lit 7841, nat_lit 772]),
    ([nat_lit 2519], [nat_lit 259])]
  vowel := [([nat_lit 2447], [nat_lit 275]),
    ([nat_lit 2451], [nat_lit 333]),
    ([nat_lit 2437, nat_lit 2509, nat_lit 2479, nat_lit 2494], [nat_lit 230]),
    ([nat_lit 2447, nat_lit 2509, nat_lit 2479, nat_lit 2494], [nat_lit 234]),
    ([nat_lit 2437], [nat_lit 97]),
    ([nat_lit 2438], [nat_lit 257]),
    ([nat_lit 2439], [nat_lit 105]),
    ([nat_lit 2440], [nat_lit 299]),
    ([nat_lit 2441], [nat_lit 117]),
    ([nat_lit 2442], [nat_lit 363]),
    ([nat_lit 2443], [nat_lit 114, nat_lit 805]),
    ([nat_lit 2528], [nat_lit 114, nat_lit 805, nat_lit 772]),
    ([nat_lit 2444], [nat_lit 108, nat_lit 805]),
    ([nat_lit 2529], [nat_lit 108, nat_lit 805, nat_lit 772]),
    ([nat_lit 2448], [nat_lit 97, nat_lit 105]),
    ([nat_lit 2452], [nat_lit 97, nat_lit 117]),
    ([nat_lit 2438, nat_lit 2519], [nat_lit 259]),
    ([nat_lit 2437, nat_lit 2519], [nat_lit 97, nat_lit 863, nat_lit 119]),
    ([nat_lit 2441, nat_lit 2494], [nat_lit 117, nat_lit 863, nat_lit 97])]
  vowelLength := []
  coda := [([nat_lit 2434], [nat_lit 7745]),
    ([nat_lit 2433], [nat_lit 109, nat_lit 784]),
    ([nat_lit 2435], [nat_lit 7717]),
    ([nat_lit 2493], [nat_lit 8217])]
  standalone := []
  virama := [([nat_lit 2509], [nat_lit 2509])]
  inherent := [([nat_lit 97], [nat_lit 97])]
  accept := []
  preserve := [([nat_lit 8205, nat_lit 2509], [nat_lit 1114113]),
    ([nat_lit 2509, nat_lit 8204], [nat_lit 1114112])]
  nfc := [([nat_lit 2503, nat_lit 2494], [nat_lit 2507]),
    ([nat_lit 2503, nat_lit 2519], [nat_lit 2508]),
    ([nat_lit 2524], [nat_lit 2465, nat_lit 2492]),
    ([nat_lit 2525], [nat_lit 2466, nat_lit 2492]),
    ([nat_lit 2527], [nat_lit 2479, nat_lit 2492])]
  visualRewrite := [([nat_lit 2437, nat_lit 2494], [nat_lit 2438]),
    ([nat_lit 2443, nat_lit 2499], [nat_lit 2528]),
    ([nat_lit 2444, nat_lit 2530], [nat_lit 2529]),
    ([nat_lit 2468, nat_lit 2509, nat_lit 8205], [nat_lit 2510]),
    ([nat_lit 2494, nat_lit 2503], [nat_lit 2507]),
    ([nat_lit 2519, nat_lit 2503], [nat_lit 2508]),
    ([nat_lit 2480, nat_lit 8204, nat_lit 2509, nat_lit 2479], [nat_lit 2480, nat_lit 8205, nat_lit 2509, nat_lit 2479])]
  readingNorm := [([nat_lit 2434, nat_lit 2455], [nat_lit 2457, nat_lit 2509, nat_lit 2455]),
    ([nat_lit 2434, nat_lit 2458], [nat_lit 2462, nat_lit 2509, nat_lit 2458]),
    ([nat_lit 2434, nat_lit 2460], [nat_lit 2462, nat_lit 2509, nat_lit 2460]),
    ([nat_lit 2434, nat_lit 2461], [nat_lit 2462, nat_lit 2509, nat_lit 2461]),
    ([nat_lit 2434, nat_lit 2463], [nat_lit 2467, nat_lit 2509, nat_lit 2463]),
    ([nat_lit 2434, nat_lit 2464], [nat_lit 2467, nat_lit 2509, nat_lit 2464]),
    ([nat_lit 2434, nat_lit 2465], [nat_lit 2467, nat_lit 2509, nat_lit 2465]),
    ([nat_lit 2434, nat_lit 2468], [nat_lit 2472, nat_lit 2509, nat_lit 2468]),
    ([nat_lit 2434, nat_lit 2469], [nat_lit 2472, nat_lit 2509, nat_lit 2469]),
    ([nat_lit 2434, nat_lit 2470], [nat_lit 2472, nat_lit 2509, nat_lit 2470]),
    ([nat_lit 2434, nat_lit 2471], [nat_lit 2472, nat_lit 2509, nat_lit 2471]),
    ([nat_lit 2434, nat_lit 2474], [nat_lit 2478, nat_lit 2509, nat_lit 2474]),
    ([nat_lit 2434, nat_lit 2476], [nat_lit 2478, nat_lit 2509, nat_lit 2476]),
    ([nat_lit 2434, nat_lit 2477], [nat_lit 2478, nat_lit 2509, nat_lit 2477]),
    ([nat_lit 2433, nat_lit 2455], [nat_lit 2457, nat_lit 2509, nat_lit 2455]),
    ([nat_lit 2433, nat_lit 2456], [nat_lit 2457, nat_lit 2509, nat_lit 2456]),
    ([nat_lit 2433, nat_lit 2464], [nat_lit 2467, nat_lit 2509, nat_lit 2464]),
    ([nat_lit 2433, nat_lit 2468], [nat_lit 2472, nat_lit 2509, nat_lit 2468]),
    ([nat_lit 2433, nat_lit 2471], [nat_lit 2472, nat_lit 2509, nat_lit 2471]),
    ([nat_lit 2433, nat_lit 2476], [nat_lit 2478, nat_lit 2509, nat_lit 2476]),
    ([nat_lit 2433, nat_lit 2477], [nat_lit 2478, nat_lit 2509, nat_lit 2477])]
  marks := [nat_lit 2433, nat_lit 2492, nat_lit 2509, nat_lit 2497, nat_lit 2498, nat_lit 2499, nat_lit 2500, nat_lit 2530, nat_lit 2531]
  noInherentVowel := false

end Nisaba.Data
