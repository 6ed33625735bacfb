import Verif.Model.Tables
/-! Generated by tools/gen_tables.py from
  nisaba/scripts/brahmic/data/Deva/coda.textproto
  nisaba/scripts/brahmic/data/Deva/consonant.textproto
  nisaba/scripts/brahmic/data/Deva/nfc.textproto
  nisaba/scripts/brahmic/data/Deva/standalone.textproto
  nisaba/scripts/brahmic/data/Deva/uname_prefix.textproto
  nisaba/scripts/brahmic/data/Deva/visual_rewrite.textproto
  nisaba/scripts/brahmic/data/Deva/vowel.textproto
  nisaba/scripts/brahmic/data/Deva/vowel_sign.textproto
  nisaba/scripts/brahmic/data/coda.textproto
  nisaba/scripts/brahmic/data/consonant.textproto
  nisaba/scripts/brahmic/data/inherent_vowel.textproto
  nisaba/scripts/brahmic/data/preserve.textproto
  nisaba/scripts/brahmic/data/standalone.textproto
  nisaba/scripts/brahmic/data/virama.textproto
  nisaba/scripts/brahmic/data/vowel.textproto
  nisaba/scripts/brahmic/data/vowel_sign.textproto
-/
namespace Nisaba.Data

def deva : BrahmicData where
  name := "Deva"
  consonant := [([nat_lit 2357], [nat_lit 118]),
    ([nat_lit 2325, nat_lit 2364], [nat_lit 113]),
    ([nat_lit 2326, nat_lit 2364], [nat_lit 120]),
    ([nat_lit 2332, nat_lit 2364], [nat_lit 122]),
    ([nat_lit 2347, nat_lit 2364], [nat_lit 102]),
    ([nat_lit 2345], [nat_lit 7753]),
    ([nat_lit 2353], [nat_lit 114, nat_lit 774]),
    ([nat_lit 2355], [nat_lit 7735]),
    ([nat_lit 2356], [nat_lit 7739]),
    ([nat_lit 2359], [nat_lit 7779]),
    ([nat_lit 2327, nat_lit 2364], [nat_lit 289]),
    ([nat_lit 2337, nat_lit 2364], [nat_lit 7771]),
    ([nat_lit 2338, nat_lit 2364], [nat_lit 7771, nat_lit 688]),
    ([nat_lit 2351, nat_lit 2364], [nat_lit 7823]),
    ([nat_lit 2325], [nat_lit 107]),
    ([nat_lit 2326], [nat_lit 107, nat_lit 688]),
    ([nat_lit 2327], [nat_lit 103]),
    ([nat_lit 2328], [nat_lit 103, nat_lit 688]),
    ([nat_lit 2329], [nat_lit 7749]),
    ([nat_lit 2330], [nat_lit 99]),
    ([nat_lit 2331], [nat_lit 99, nat_lit 688]),
    ([nat_lit 2332], [nat_lit 106]),
    ([nat_lit 2333], [nat_lit 106, nat_lit 688]),
    ([nat_lit 2334], [nat_lit 241]),
    ([nat_lit 2335], [nat_lit 7789]),
    ([nat_lit 2336], [nat_lit 7789, nat_lit 688]),
    ([nat_lit 2337], [nat_lit 7693]),
    ([nat_lit 2338], [nat_lit 7693, nat_lit 688]),
    ([nat_lit 2339], [nat_lit 7751]),
    ([nat_lit 2340], [nat_lit 116]),
    ([nat_lit 2341], [nat_lit 116, nat_lit 688]),
    ([nat_lit 2342], [nat_lit 100]),
    ([nat_lit 2343], [nat_lit 100, nat_lit 688]),
    ([nat_lit 2344], [nat_lit 110]),
    ([nat_lit 2346], [nat_lit 112]),
    ([nat_lit 2347], [nat_lit 112, nat_lit 688]),
    ([nat_lit 2348], [nat_lit 98]),
    ([nat_lit 2349], [nat_lit 98, nat_lit 688]),
    ([nat_lit 2350], [nat_lit 109]),
    ([nat_lit 2351], [nat_lit 121]),
    ([nat_lit 2352], [nat_lit 114]),
    ([nat_lit 2354], [nat_lit 108]),
    ([nat_lit 2358], [nat_lit 347]),
    ([nat_lit 2360], [nat_lit 115]),
    ([nat_lit 2361], [nat_lit 104])]
  deadConsonant := []
  subjoined := []
  vowelSign := [([nat_lit 2375], [nat_lit 275]),
    ([nat_lit 2379], [nat_lit 333]),
    ([nat_lit 2374], [nat_lit 101]),
    ([nat_lit 2373], [nat_lit 234]),
    ([nat_lit 2378], [nat_lit 111]),
    ([nat_lit 2377], [nat_lit 244]),
    ([nat_lit 2366], [nat_lit 257]),
    ([nat_lit 2367], [nat_lit 105]),
    ([nat_lit 2368], [nat_lit 299]),
    ([nat_lit 2369], [nat_lit 117]),
    ([nat_lit 2370], [nat_lit 363]),
    ([nat_lit 2371], [nat_lit 114, nat_lit 805]),
    ([nat_lit 2372], [nat_lit 114, nat_lit 805, nat_lit 772]),
    ([nat_lit 2402], [nat_lit 108, nat_lit 805]),
    ([nat_lit 2403], [nat_lit 108, nat_lit 805, nat_lit 772]),
    ([nat_lit 2376], [nat_lit 97, nat_lit 105]),
    ([nat_lit 2380], [nat_lit 97, nat_lit 117])]
  vowel := [([nat_lit 2319], [nat_lit 275]),
    ([nat_lit 2323], [nat_lit 333]),
    ([nat_lit 2318], [nat_lit 101]),
    ([nat_lit 2317], [nat_lit 234]),
    ([nat_lit 2322], [nat_lit 111]),
    ([nat_lit 2321], [nat_lit 244]),
    ([nat_lit 2418], [nat_lit 230]),
    ([nat_lit 2309], [nat_lit 97]),
    ([nat_lit 2310], [nat_lit 257]),
    ([nat_lit 2311], [nat_lit 105]),
    ([nat_lit 2312], [nat_lit 299]),
    ([nat_lit 2313], [nat_lit 117]),
    ([nat_lit 2314], [nat_lit 363]),
    ([nat_lit 2315], [nat_lit 114, nat_lit 805]),
    ([nat_lit 2400], [nat_lit 114, nat_lit 805, nat_lit 772]),
    ([nat_lit 2316], [nat_lit 108, nat_lit 805]),
    ([nat_lit 2401], [nat_lit 108, nat_lit 805, nat_lit 772]),
    ([nat_lit 2320], [nat_lit 97, nat_lit 105]),
    ([nat_lit 2324], [nat_lit 97, nat_lit 117])]
  vowelLength := []
  coda := [([nat_lit 2364], [nat_lit 721]),
    ([nat_lit 2306], [nat_lit 7745]),
    ([nat_lit 2305], [nat_lit 109, nat_lit 784]),
    ([nat_lit 2307], [nat_lit 7717]),
    ([nat_lit 2365], [nat_lit 8217])]
  standalone := [([nat_lit 7413], [nat_lit 7830]),
    ([nat_lit 7414], [nat_lit 7723]),
    ([nat_lit 2365], [nat_lit 8217]),
    ([nat_lit 2384], [nat_lit 245, nat_lit 109])]
  virama := [([nat_lit 2381], [nat_lit 2381])]
  inherent := [([nat_lit 97], [nat_lit 97])]
  accept := []
  preserve := [([nat_lit 2381, nat_lit 8204], [nat_lit 1114112])]
  nfc := [([nat_lit 2344, nat_lit 2364], [nat_lit 2345]),
    ([nat_lit 2352, nat_lit 2364], [nat_lit 2353]),
    ([nat_lit 2355, nat_lit 2364], [nat_lit 2356]),
    ([nat_lit 2392], [nat_lit 2325, nat_lit 2364]),
    ([nat_lit 2393], [nat_lit 2326, nat_lit 2364]),
    ([nat_lit 2394], [nat_lit 2327, nat_lit 2364]),
    ([nat_lit 2395], [nat_lit 2332, nat_lit 2364]),
    ([nat_lit 2396], [nat_lit 2337, nat_lit 2364]),
    ([nat_lit 2397], [nat_lit 2338, nat_lit 2364]),
    ([nat_lit 2398], [nat_lit 2347, nat_lit 2364]),
    ([nat_lit 2399], [nat_lit 2351, nat_lit 2364])]
  visualRewrite := [([nat_lit 2309, nat_lit 2374], [nat_lit 2308]),
    ([nat_lit 2309, nat_lit 2366], [nat_lit 2310]),
    ([nat_lit 2352, nat_lit 2381, nat_lit 2311], [nat_lit 2312]),
    ([nat_lit 2313, nat_lit 2369], [nat_lit 2314]),
    ([nat_lit 2319, nat_lit 2373], [nat_lit 2317]),
    ([nat_lit 2319, nat_lit 2374], [nat_lit 2318]),
    ([nat_lit 2319, nat_lit 2375], [nat_lit 2320]),
    ([nat_lit 2309, nat_lit 2377], [nat_lit 2321]),
    ([nat_lit 2310, nat_lit 2373], [nat_lit 2321]),
    ([nat_lit 2309, nat_lit 2378], [nat_lit 2322]),
    ([nat_lit 2310, nat_lit 2374], [nat_lit 2322]),
    ([nat_lit 2309, nat_lit 2379], [nat_lit 2323]),
    ([nat_lit 2310, nat_lit 2375], [nat_lit 2323]),
    ([nat_lit 2309, nat_lit 2380], [nat_lit 2324]),
    ([nat_lit 2310, nat_lit 2376], [nat_lit 2324]),
    ([nat_lit 2309, nat_lit 2373], [nat_lit 2418]),
    ([nat_lit 2309, nat_lit 2362], [nat_lit 2419]),
    ([nat_lit 2309, nat_lit 2363], [nat_lit 2420]),
    ([nat_lit 2310, nat_lit 2362], [nat_lit 2420]),
    ([nat_lit 2309, nat_lit 2383], [nat_lit 2421]),
    ([nat_lit 2309, nat_lit 2390], [nat_lit 2422]),
    ([nat_lit 2309, nat_lit 2391], [nat_lit 2423]),
    ([nat_lit 2326, nat_lit 2381, nat_lit 2366], [nat_lit 2326]),
    ([nat_lit 2326, nat_lit 2381, nat_lit 8205, nat_lit 2366], [nat_lit 2326]),
    ([nat_lit 2327, nat_lit 2381, nat_lit 2366], [nat_lit 2327]),
    ([nat_lit 2327, nat_lit 2381, nat_lit 8205, nat_lit 2366], [nat_lit 2327]),
    ([nat_lit 2328, nat_lit 2381, nat_lit 2366], [nat_lit 2328]),
    ([nat_lit 2328, nat_lit 2381, nat_lit 8205, nat_lit 2366], [nat_lit 2328]),
    ([nat_lit 2330, nat_lit 2381, nat_lit 2366], [nat_lit 2330]),
    ([nat_lit 2330, nat_lit 2381, nat_lit 8205, nat_lit 2366], [nat_lit 2330]),
    ([nat_lit 2332, nat_lit 2381, nat_lit 2366], [nat_lit 2332]),
    ([nat_lit 2332, nat_lit 2381, nat_lit 8205, nat_lit 2366], [nat_lit 2332]),
    ([nat_lit 2333, nat_lit 2381, nat_lit 2366], [nat_lit 2333]),
    ([nat_lit 2333, nat_lit 2381, nat_lit 8205, nat_lit 2366], [nat_lit 2333]),
    ([nat_lit 2334, nat_lit 2381, nat_lit 2366], [nat_lit 2334]),
    ([nat_lit 2334, nat_lit 2381, nat_lit 8205, nat_lit 2366], [nat_lit 2334]),
    ([nat_lit 2339, nat_lit 2381, nat_lit 2366], [nat_lit 2339]),
    ([nat_lit 2339, nat_lit 2381, nat_lit 8205, nat_lit 2366], [nat_lit 2339]),
    ([nat_lit 2340, nat_lit 2381, nat_lit 2366], [nat_lit 2340]),
    ([nat_lit 2340, nat_lit 2381, nat_lit 8205, nat_lit 2366], [nat_lit 2340]),
    ([nat_lit 2341, nat_lit 2381, nat_lit 2366], [nat_lit 2341]),
    ([nat_lit 2341, nat_lit 2381, nat_lit 8205, nat_lit 2366], [nat_lit 2341]),
    ([nat_lit 2343, nat_lit 2381, nat_lit 2366], [nat_lit 2343]),
    ([nat_lit 2343, nat_lit 2381, nat_lit 8205, nat_lit 2366], [nat_lit 2343]),
    ([nat_lit 2344, nat_lit 2381, nat_lit 2366], [nat_lit 2344]),
    ([nat_lit 2344, nat_lit 2381, nat_lit 8205, nat_lit 2366], [nat_lit 2344]),
    ([nat_lit 2345, nat_lit 2381, nat_lit 2366], [nat_lit 2345]),
    ([nat_lit 2345, nat_lit 2381, nat_lit 8205, nat_lit 2366], [nat_lit 2345]),
    ([nat_lit 2344, nat_lit 2364, nat_lit 2381, nat_lit 2366], [nat_lit 2345]),
    ([nat_lit 2344, nat_lit 2364, nat_lit 2381, nat_lit 8205, nat_lit 2366], [nat_lit 2345]),
    ([nat_lit 2346, nat_lit 2381, nat_lit 2366], [nat_lit 2346]),
    ([nat_lit 2346, nat_lit 2381, nat_lit 8205, nat_lit 2366], [nat_lit 2346]),
    ([nat_lit 2348, nat_lit 2381, nat_lit 2366], [nat_lit 2348]),
    ([nat_lit 2348, nat_lit 2381, nat_lit 8205, nat_lit 2366], [nat_lit 2348]),
    ([nat_lit 2349, nat_lit 2381, nat_lit 2366], [nat_lit 2349]),
    ([nat_lit 2349, nat_lit 2381, nat_lit 8205, nat_lit 2366], [nat_lit 2349]),
    ([nat_lit 2350, nat_lit 2381, nat_lit 2366], [nat_lit 2350]),
    ([nat_lit 2350, nat_lit 2381, nat_lit 8205, nat_lit 2366], [nat_lit 2350]),
    ([nat_lit 2351, nat_lit 2381, nat_lit 2366], [nat_lit 2351]),
    ([nat_lit 2351, nat_lit 2381, nat_lit 8205, nat_lit 2366], [nat_lit 2351]),
    ([nat_lit 2354, nat_lit 2381, nat_lit 2366], [nat_lit 2354]),
    ([nat_lit 2354, nat_lit 2381, nat_lit 8205, nat_lit 2366], [nat_lit 2354]),
    ([nat_lit 2357, nat_lit 2381, nat_lit 2366], [nat_lit 2357]),
    ([nat_lit 2357, nat_lit 2381, nat_lit 8205, nat_lit 2366], [nat_lit 2357]),
    ([nat_lit 2358, nat_lit 2381, nat_lit 2366], [nat_lit 2358]),
    ([nat_lit 2358, nat_lit 2381, nat_lit 8205, nat_lit 2366], [nat_lit 2358]),
    ([nat_lit 2359, nat_lit 2381, nat_lit 2366], [nat_lit 2359]),
    ([nat_lit 2359, nat_lit 2381, nat_lit 8205, nat_lit 2366], [nat_lit 2359]),
    ([nat_lit 2360, nat_lit 2381, nat_lit 2366], [nat_lit 2360]),
    ([nat_lit 2360, nat_lit 2381, nat_lit 8205, nat_lit 2366], [nat_lit 2360]),
    ([nat_lit 2393, nat_lit 2381, nat_lit 2366], [nat_lit 2393]),
    ([nat_lit 2393, nat_lit 2381, nat_lit 8205, nat_lit 2366], [nat_lit 2393]),
    ([nat_lit 2326, nat_lit 2364, nat_lit 2381, nat_lit 2366], [nat_lit 2393]),
    ([nat_lit 2326, nat_lit 2364, nat_lit 2381, nat_lit 8205, nat_lit 2366], [nat_lit 2393]),
    ([nat_lit 2394, nat_lit 2381, nat_lit 2366], [nat_lit 2394]),
    ([nat_lit 2394, nat_lit 2381, nat_lit 8205, nat_lit 2366], [nat_lit 2394]),
    ([nat_lit 2327, nat_lit 2364, nat_lit 2381, nat_lit 2366], [nat_lit 2394]),
    ([nat_lit 2327, nat_lit 2364, nat_lit 2381, nat_lit 8205, nat_lit 2366], [nat_lit 2394]),
    ([nat_lit 2395, nat_lit 2381, nat_lit 2366], [nat_lit 2395]),
    ([nat_lit 2395, nat_lit 2381, nat_lit 8205, nat_lit 2366], [nat_lit 2395]),
    ([nat_lit 2332, nat_lit 2364, nat_lit 2381, nat_lit 2366], [nat_lit 2395]),
    ([nat_lit 2332, nat_lit 2364, nat_lit 2381, nat_lit 8205, nat_lit 2366], [nat_lit 2395]),
    ([nat_lit 2399, nat_lit 2381, nat_lit 2366], [nat_lit 2399]),
    ([nat_lit 2399, nat_lit 2381, nat_lit 8205, nat_lit 2366], [nat_lit 2399]),
    ([nat_lit 2351, nat_lit 2364, nat_lit 2381, nat_lit 2366], [nat_lit 2399]),
    ([nat_lit 2351, nat_lit 2364, nat_lit 2381, nat_lit 8205, nat_lit 2366], [nat_lit 2399]),
    ([nat_lit 2425, nat_lit 2381, nat_lit 2366], [nat_lit 2425]),
    ([nat_lit 2425, nat_lit 2381, nat_lit 8205, nat_lit 2366], [nat_lit 2425]),
    ([nat_lit 2426, nat_lit 2381, nat_lit 2366], [nat_lit 2426]),
    ([nat_lit 2426, nat_lit 2381, nat_lit 8205, nat_lit 2366], [nat_lit 2426]),
    ([nat_lit 2427, nat_lit 2381, nat_lit 2366], [nat_lit 2427]),
    ([nat_lit 2427, nat_lit 2381, nat_lit 8205, nat_lit 2366], [nat_lit 2427]),
    ([nat_lit 2428, nat_lit 2381, nat_lit 2366], [nat_lit 2428]),
    ([nat_lit 2428, nat_lit 2381, nat_lit 8205, nat_lit 2366], [nat_lit 2428]),
    ([nat_lit 2430, nat_lit 2381, nat_lit 2366], [nat_lit 2430]),
    ([nat_lit 2430, nat_lit 2381, nat_lit 8205, nat_lit 2366], [nat_lit 2430]),
    ([nat_lit 2431, nat_lit 2381, nat_lit 2366], [nat_lit 2431]),
    ([nat_lit 2431, nat_lit 2381, nat_lit 8205, nat_lit 2366], [nat_lit 2431]),
    ([nat_lit 2325, nat_lit 2381, nat_lit 2330, nat_lit 2381, nat_lit 2366], [nat_lit 2325, nat_lit 2381, nat_lit 2330]),
    ([nat_lit 2325, nat_lit 2381, nat_lit 2330, nat_lit 2381, nat_lit 8205, nat_lit 2366], [nat_lit 2325, nat_lit 2381, nat_lit 2330]),
    ([nat_lit 2325, nat_lit 2381, nat_lit 2359, nat_lit 2381, nat_lit 2366], [nat_lit 2325, nat_lit 2381, nat_lit 2359]),
    ([nat_lit 2325, nat_lit 2381, nat_lit 2359, nat_lit 2381, nat_lit 8205, nat_lit 2366], [nat_lit 2325, nat_lit 2381, nat_lit 2359]),
    ([nat_lit 2340, nat_lit 2381, nat_lit 2340, nat_lit 2381, nat_lit 2366], [nat_lit 2340, nat_lit 2381, nat_lit 2340]),
    ([nat_lit 2340, nat_lit 2381, nat_lit 2340, nat_lit 2381, nat_lit 8205, nat_lit 2366], [nat_lit 2340, nat_lit 2381, nat_lit 2340]),
    ([nat_lit 2344, nat_lit 2381, nat_lit 2340, nat_lit 2381, nat_lit 2366], [nat_lit 2344, nat_lit 2381, nat_lit 2340]),
    ([nat_lit 2344, nat_lit 2381, nat_lit 2340, nat_lit 2381, nat_lit 8205, nat_lit 2366], [nat_lit 2344, nat_lit 2381, nat_lit 2340]),
    ([nat_lit 2352, nat_lit 2381, nat_lit 2315], [nat_lit 2352, nat_lit 2371]),
    ([nat_lit 2352, nat_lit 2381, nat_lit 2400], [nat_lit 2352, nat_lit 2372]),
    ([nat_lit 2352, nat_lit 2381, nat_lit 2316], [nat_lit 2352, nat_lit 2402]),
    ([nat_lit 2352, nat_lit 2381, nat_lit 2401], [nat_lit 2352, nat_lit 2403]),
    ([nat_lit 2352, nat_lit 2381, nat_lit 8205], [nat_lit 2353, nat_lit 2381]),
    ([nat_lit 2309, nat_lit 2375], [nat_lit 2308]),
    ([nat_lit 2309, nat_lit 8205, nat_lit 2362], [nat_lit 2419]),
    ([nat_lit 2309, nat_lit 8205, nat_lit 2373], [nat_lit 2418]),
    ([nat_lit 2309, nat_lit 8205, nat_lit 2374], [nat_lit 2308]),
    ([nat_lit 2309, nat_lit 8205, nat_lit 2390], [nat_lit 2422]),
    ([nat_lit 2309, nat_lit 8205, nat_lit 2391], [nat_lit 2423]),
    ([nat_lit 2309, nat_lit 8205, nat_lit 2366], [nat_lit 2310]),
    ([nat_lit 2418, nat_lit 2306], [nat_lit 2309, nat_lit 2305]),
    ([nat_lit 2418, nat_lit 2305], [nat_lit 2309, nat_lit 2305]),
    ([nat_lit 2309, nat_lit 2373, nat_lit 2306], [nat_lit 2309, nat_lit 2305]),
    ([nat_lit 2309, nat_lit 2373, nat_lit 2305], [nat_lit 2309, nat_lit 2305]),
    ([nat_lit 2309, nat_lit 2366, nat_lit 2373], [nat_lit 2321]),
    ([nat_lit 2309, nat_lit 2366, nat_lit 2374], [nat_lit 2322]),
    ([nat_lit 2309, nat_lit 2366, nat_lit 2375], [nat_lit 2323]),
    ([nat_lit 2309, nat_lit 2366, nat_lit 2376], [nat_lit 2324]),
    ([nat_lit 2309, nat_lit 2366, nat_lit 2362], [nat_lit 2420]),
    ([nat_lit 2309, nat_lit 2366, nat_lit 43263], [nat_lit 2421]),
    ([nat_lit 2321, nat_lit 2306], [nat_lit 2310, nat_lit 2305]),
    ([nat_lit 2321, nat_lit 2305], [nat_lit 2310, nat_lit 2305]),
    ([nat_lit 2309, nat_lit 2377, nat_lit 2306], [nat_lit 2310, nat_lit 2305]),
    ([nat_lit 2309, nat_lit 2377, nat_lit 2305], [nat_lit 2310, nat_lit 2305]),
    ([nat_lit 2310, nat_lit 2373, nat_lit 2306], [nat_lit 2310, nat_lit 2305]),
    ([nat_lit 2310, nat_lit 2373, nat_lit 2305], [nat_lit 2310, nat_lit 2305]),
    ([nat_lit 2309, nat_lit 2366, nat_lit 2373, nat_lit 2306], [nat_lit 2310, nat_lit 2305]),
    ([nat_lit 2309, nat_lit 2366, nat_lit 2373, nat_lit 2305], [nat_lit 2310, nat_lit 2305]),
    ([nat_lit 2310, nat_lit 43263], [nat_lit 2421]),
    ([nat_lit 2319, nat_lit 43263], [nat_lit 43262]),
    ([nat_lit 2317, nat_lit 2306], [nat_lit 2319, nat_lit 2305]),
    ([nat_lit 2317, nat_lit 2305], [nat_lit 2319, nat_lit 2305]),
    ([nat_lit 2319, nat_lit 2373, nat_lit 2306], [nat_lit 2319, nat_lit 2305]),
    ([nat_lit 2319, nat_lit 2373, nat_lit 2305], [nat_lit 2319, nat_lit 2305]),
    ([nat_lit 784], [nat_lit 2305]),
    ([nat_lit 2373, nat_lit 2306], [nat_lit 2305]),
    ([nat_lit 2373, nat_lit 2305], [nat_lit 2305]),
    ([nat_lit 2377, nat_lit 2306], [nat_lit 2366, nat_lit 2305]),
    ([nat_lit 2377, nat_lit 2305], [nat_lit 2366, nat_lit 2305]),
    ([nat_lit 2366, nat_lit 2373, nat_lit 2306], [nat_lit 2366, nat_lit 2305]),
    ([nat_lit 2366, nat_lit 2373, nat_lit 2305], [nat_lit 2366, nat_lit 2305]),
    ([nat_lit 2366, nat_lit 2373], [nat_lit 2377]),
    ([nat_lit 2366, nat_lit 2374], [nat_lit 2378]),
    ([nat_lit 2366, nat_lit 2375], [nat_lit 2379]),
    ([nat_lit 2366, nat_lit 2376], [nat_lit 2380]),
    ([nat_lit 2366, nat_lit 2362], [nat_lit 2363]),
    ([nat_lit 2366, nat_lit 43263], [nat_lit 2383]),
    ([nat_lit 2373, nat_lit 2366], [nat_lit 2377]),
    ([nat_lit 2374, nat_lit 2366], [nat_lit 2378]),
    ([nat_lit 2375, nat_lit 2366], [nat_lit 2379]),
    ([nat_lit 2376, nat_lit 2366], [nat_lit 2380]),
    ([nat_lit 2362, nat_lit 2366], [nat_lit 2363]),
    ([nat_lit 43263, nat_lit 2366], [nat_lit 2383]),
    ([nat_lit 2381, nat_lit 2364], [nat_lit 2364, nat_lit 2381]),
    ([nat_lit 2306, nat_lit 2373], [nat_lit 2305]),
    ([nat_lit 2306, nat_lit 2374], [nat_lit 2374, nat_lit 2306]),
    ([nat_lit 2306, nat_lit 2375], [nat_lit 2375, nat_lit 2306]),
    ([nat_lit 2306, nat_lit 2376], [nat_lit 2376, nat_lit 2306]),
    ([nat_lit 2306, nat_lit 2362], [nat_lit 2362, nat_lit 2306]),
    ([nat_lit 2306, nat_lit 43263], [nat_lit 43263, nat_lit 2306]),
    ([nat_lit 2327, nat_lit 2386], [nat_lit 2427]),
    ([nat_lit 2332, nat_lit 2386], [nat_lit 2428]),
    ([nat_lit 2337, nat_lit 2386], [nat_lit 2430]),
    ([nat_lit 2348, nat_lit 2386], [nat_lit 2431]),
    ([nat_lit 2375, nat_lit 2367], [nat_lit 2367]),
    ([nat_lit 2375, nat_lit 2373], [nat_lit 2373]),
    ([nat_lit 2375, nat_lit 2376], [nat_lit 2376]),
    ([nat_lit 2324, nat_lit 2375], [nat_lit 2324]),
    ([nat_lit 2317, nat_lit 2373], [nat_lit 2317]),
    ([nat_lit 2318, nat_lit 2374], [nat_lit 2318]),
    ([nat_lit 2320, nat_lit 2375], [nat_lit 2320]),
    ([nat_lit 43262, nat_lit 43263], [nat_lit 43262]),
    ([nat_lit 2377, nat_lit 2373], [nat_lit 2377]),
    ([nat_lit 2378, nat_lit 2374], [nat_lit 2378]),
    ([nat_lit 2379, nat_lit 2375], [nat_lit 2379]),
    ([nat_lit 2380, nat_lit 2376], [nat_lit 2380]),
    ([nat_lit 2363, nat_lit 2362], [nat_lit 2363]),
    ([nat_lit 2383, nat_lit 43263], [nat_lit 2383]),
    ([nat_lit 2321, nat_lit 2373], [nat_lit 2321]),
    ([nat_lit 2322, nat_lit 2374], [nat_lit 2322]),
    ([nat_lit 2323, nat_lit 2375], [nat_lit 2323]),
    ([nat_lit 2324, nat_lit 2376], [nat_lit 2324]),
    ([nat_lit 2420, nat_lit 2362], [nat_lit 2420]),
    ([nat_lit 2421, nat_lit 43263], [nat_lit 2421]),
    ([nat_lit 2345, nat_lit 2364], [nat_lit 2345]),
    ([nat_lit 2353, nat_lit 2364], [nat_lit 2353]),
    ([nat_lit 2356, nat_lit 2364], [nat_lit 2356])]
  readingNorm := []
  marks := [nat_lit 2364, nat_lit 2306, nat_lit 2305, nat_lit 2381, nat_lit 2375, nat_lit 2374, nat_lit 2373, nat_lit 2369, nat_lit 2370, nat_lit 2371, nat_lit 2372, nat_lit 2402, nat_lit 2403, nat_lit 2376, nat_lit 2362, nat_lit 2390, nat_lit 2391, nat_lit 43263, nat_lit 784, nat_lit 2386]
  noInherentVowel := false

end Nisaba.Data
