import Verif.Model.Tables
/-! Generated by tools/gen_tables.py from
  nisaba/scripts/brahmic/data/Guru/coda.textproto
  nisaba/scripts/brahmic/data/Guru/consonant.textproto
  nisaba/scripts/brahmic/data/Guru/nfc.textproto
  nisaba/scripts/brahmic/data/Guru/uname_prefix.textproto
  nisaba/scripts/brahmic/data/Guru/visual_rewrite.textproto
  nisaba/scripts/brahmic/data/Guru/vowel.textproto
  nisaba/scripts/brahmic/data/Guru/vowel_sign.textproto
  nisaba/scripts/brahmic/data/consonant.textproto
  nisaba/scripts/brahmic/data/inherent_vowel.textproto
  nisaba/scripts/brahmic/data/preserve.textproto
  nisaba/scripts/brahmic/data/virama.textproto
-/
namespace Nisaba.Data

def guru : BrahmicData where
  name := "Guru"
  consonant := [([nat_lit 2613], [nat_lit 118]),
    ([nat_lit 2581, nat_lit 2620], [nat_lit 113]),
    ([nat_lit 2582, nat_lit 2620], [nat_lit 120]),
    ([nat_lit 2588, nat_lit 2620], [nat_lit 122]),
    ([nat_lit 2603, nat_lit 2620], [nat_lit 102]),
    ([nat_lit 2652], [nat_lit 7771]),
    ([nat_lit 2583, nat_lit 2620], [nat_lit 289]),
    ([nat_lit 2610, nat_lit 2620], [nat_lit 7735]),
    ([nat_lit 2616, nat_lit 2620], [nat_lit 347]),
    ([nat_lit 2581], [nat_lit 107]),
    ([nat_lit 2582], [nat_lit 107, nat_lit 688]),
    ([nat_lit 2583], [nat_lit 103]),
    ([nat_lit 2584], [nat_lit 103, nat_lit 688]),
    ([nat_lit 2585], [nat_lit 7749]),
    ([nat_lit 2586], [nat_lit 99]),
    ([nat_lit 2587], [nat_lit 99, nat_lit 688]),
    ([nat_lit 2588], [nat_lit 106]),
    ([nat_lit 2589], [nat_lit 106, nat_lit 688]),
    ([nat_lit 2590], [nat_lit 241]),
    ([nat_lit 2591], [nat_lit 7789]),
    ([nat_lit 2592], [nat_lit 7789, nat_lit 688]),
    ([nat_lit 2593], [nat_lit 7693]),
    ([nat_lit 2594], [nat_lit 7693, nat_lit 688]),
    ([nat_lit 2595], [nat_lit 7751]),
    ([nat_lit 2596], [nat_lit 116]),
    ([nat_lit 2597], [nat_lit 116, nat_lit 688]),
    ([nat_lit 2598], [nat_lit 100]),
    ([nat_lit 2599], [nat_lit 100, nat_lit 688]),
    ([nat_lit 2600], [nat_lit 110]),
    ([nat_lit 2602], [nat_lit 112]),
    ([nat_lit 2603], [nat_lit 112, nat_lit 688]),
    ([nat_lit 2604], [nat_lit 98]),
    ([nat_lit 2605], [nat_lit 98, nat_lit 688]),
    ([nat_lit 2606], [nat_lit 109]),
    ([nat_lit 2607], [nat_lit 121]),
    ([nat_lit 2608], [nat_lit 114]),
    ([nat_lit 2610], [nat_lit 108]),
    ([nat_lit 2614], [nat_lit 347]),
    ([nat_lit 2616], [nat_lit 115]),
    ([nat_lit 2617], [nat_lit 104])]
  deadConsonant := []
  subjoined := []
  vowelSign := [([nat_lit 2622], [nat_lit 257]),
    ([nat_lit 2623], [nat_lit 105]),
    ([nat_lit 2624], [nat_lit 299]),
    ([nat_lit 2625], [nat_lit 117]),
    ([nat_lit 2626], [nat_lit 363]),
    ([nat_lit 2631], [nat_lit 275]),
    ([nat_lit 2632], [nat_lit 97, nat_lit 105]),
    ([nat_lit 2635], [nat_lit 333]),
    ([nat_lit 2636], [nat_lit 97, nat_lit 117])]
  vowel := [([nat_lit 2565], [nat_lit 97]),
    ([nat_lit 2566], [nat_lit 257]),
    ([nat_lit 2674], [nat_lit 464]),
    ([nat_lit 2567], [nat_lit 105]),
    ([nat_lit 2568], [nat_lit 299]),
    ([nat_lit 2675], [nat_lit 468]),
    ([nat_lit 2569], [nat_lit 117]),
    ([nat_lit 2570], [nat_lit 363]),
    ([nat_lit 2575], [nat_lit 275]),
    ([nat_lit 2576], [nat_lit 97, nat_lit 105]),
    ([nat_lit 2579], [nat_lit 333]),
    ([nat_lit 2580], [nat_lit 97, nat_lit 117])]
  vowelLength := []
  coda := [([nat_lit 2562], [nat_lit 7745]),
    ([nat_lit 2672], [nat_lit 7747]),
    ([nat_lit 2561], [nat_lit 109, nat_lit 784]),
    ([nat_lit 2563], [nat_lit 7717]),
    ([nat_lit 2673], [nat_lit 726]),
    ([nat_lit 2641], [nat_lit 8341]),
    ([nat_lit 2677], [nat_lit 121, nat_lit 774])]
  standalone := []
  virama := [([nat_lit 2637], [nat_lit 2637])]
  inherent := [([nat_lit 97], [nat_lit 97])]
  accept := []
  preserve := [([nat_lit 2637, nat_lit 8204], [nat_lit 1114112])]
  nfc := [([nat_lit 2611], [nat_lit 2610, nat_lit 2620]),
    ([nat_lit 2614], [nat_lit 2616, nat_lit 2620]),
    ([nat_lit 2649], [nat_lit 2582, nat_lit 2620]),
    ([nat_lit 2650], [nat_lit 2583, nat_lit 2620]),
    ([nat_lit 2651], [nat_lit 2588, nat_lit 2620]),
    ([nat_lit 2654], [nat_lit 2603, nat_lit 2620])]
  visualRewrite := [([nat_lit 2565, nat_lit 2622], [nat_lit 2566]),
    ([nat_lit 2674, nat_lit 2623], [nat_lit 2567]),
    ([nat_lit 2674, nat_lit 2624], [nat_lit 2568]),
    ([nat_lit 2675, nat_lit 2625], [nat_lit 2569]),
    ([nat_lit 2675, nat_lit 2626], [nat_lit 2570]),
    ([nat_lit 2674, nat_lit 2631], [nat_lit 2575]),
    ([nat_lit 2565, nat_lit 2632], [nat_lit 2576]),
    ([nat_lit 2675, nat_lit 2635], [nat_lit 2579]),
    ([nat_lit 2565, nat_lit 2636], [nat_lit 2580])]
  readingNorm := []
  marks := [nat_lit 2562, nat_lit 2672, nat_lit 2561, nat_lit 2673, nat_lit 2641, nat_lit 2677, nat_lit 2620, nat_lit 2637, nat_lit 2625, nat_lit 2626, nat_lit 2631, nat_lit 2632, nat_lit 2635, nat_lit 2636]
  noInherentVowel := false

end Nisaba.Data
