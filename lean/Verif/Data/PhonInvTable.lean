import Verif.Model.PhonInv
/-! Generated by tools/gen_phoninv.py: what the inventory comes to (checked in
`Verif.Lemmas.PhonInv`) and the distances in quarters. -/
namespace Nisaba.PhonInv

def table : List Phoneme := [
  ⟨a!"a", a!"a", a!"open front unrounded vowel", [[1], [1], [1001], [1001], [1001], [7], [1], [7], [1], [6], [1001], [2], [3], [2], [1000], [1]]⟩,
  ⟨a!"ä", a!"au", a!"open center unrounded vowel", [[1], [1], [1001], [1001], [1001], [7], [3], [7], [1], [6], [1001], [2], [3], [2], [1000], [1]]⟩,
  ⟨a!"æ", a!"ae", a!"near_open front unrounded vowel", [[1], [1], [1001], [1001], [1001], [6], [1], [7], [1], [6], [1001], [2], [3], [2], [1000], [1]]⟩,
  ⟨a!"ɐ", a!"av", a!"near_open center unrounded vowel", [[1], [1], [1001], [1001], [1001], [6], [3], [7], [1], [6], [1001], [2], [3], [2], [1000], [1]]⟩,
  ⟨a!"ɑ", a!"aw", a!"open back unrounded vowel", [[1], [1], [1001], [1001], [1001], [7], [5], [7], [1], [6], [1001], [2], [3], [2], [1000], [1]]⟩,
  ⟨a!"ɒ", a!"ow", a!"open back rounded vowel", [[1], [1], [1001], [1001], [1001], [7], [5], [7], [1], [3], [1001], [2], [3], [2], [1000], [1]]⟩,
  ⟨a!"e", a!"e", a!"close_mid front unrounded vowel", [[1], [1], [1001], [1001], [1001], [3], [1], [7], [1], [6], [1001], [2], [3], [2], [1000], [1]]⟩,
  ⟨a!"ə", a!"ec", a!"mid center unrounded vowel", [[1], [1], [1001], [1001], [1001], [4], [3], [7], [1], [6], [1001], [2], [3], [2], [1000], [1]]⟩,
  ⟨a!"ɛ", a!"eh", a!"open_mid front unrounded vowel", [[1], [1], [1001], [1001], [1001], [5], [1], [7], [1], [6], [1001], [2], [3], [2], [1000], [1]]⟩,
  ⟨a!"ɘ", a!"el", a!"close_mid center unrounded vowel", [[1], [1], [1001], [1001], [1001], [3], [3], [7], [1], [6], [1001], [2], [3], [2], [1000], [1]]⟩,
  ⟨a!"ɜ", a!"ex", a!"open_mid center unrounded vowel", [[1], [1], [1001], [1001], [1001], [5], [3], [7], [1], [6], [1001], [2], [3], [2], [1000], [1]]⟩,
  ⟨a!"ɞ", a!"ox", a!"open_mid center rounded vowel", [[1], [1], [1001], [1001], [1001], [5], [3], [7], [1], [3], [1001], [2], [3], [2], [1000], [1]]⟩,
  ⟨a!"ɤ", a!"eo", a!"close_mid back unrounded vowel", [[1], [1], [1001], [1001], [1001], [3], [5], [7], [1], [6], [1001], [2], [3], [2], [1000], [1]]⟩,
  ⟨a!"i", a!"i", a!"close front unrounded vowel", [[1], [1], [1001], [1001], [1001], [1], [1], [7], [1], [6], [1001], [2], [3], [2], [1000], [1]]⟩,
  ⟨a!"ɪ", a!"iy", a!"near_close near_front unrounded vowel", [[1], [1], [1001], [1001], [1001], [2], [2], [7], [1], [6], [1001], [2], [3], [2], [1000], [1]]⟩,
  ⟨a!"ɨ", a!"ic", a!"close center unrounded vowel", [[1], [1], [1001], [1001], [1001], [1], [3], [7], [1], [6], [1001], [2], [3], [2], [1000], [1]]⟩,
  ⟨a!"o", a!"o", a!"close_mid back rounded vowel", [[1], [1], [1001], [1001], [1001], [3], [5], [7], [1], [3], [1001], [2], [3], [2], [1000], [1]]⟩,
  ⟨a!"ø", a!"oi", a!"close_mid front rounded vowel", [[1], [1], [1001], [1001], [1001], [1000], [1], [7], [1], [3], [1001], [2], [3], [2], [1000], [1]]⟩,
  ⟨a!"œ", a!"oe", a!"open_mid front rounded vowel", [[1], [1], [1001], [1001], [1001], [5], [1], [7], [1], [3], [1001], [2], [3], [2], [1000], [1]]⟩,
  ⟨a!"ɶ", a!"oa", a!"open front rounded vowel", [[1], [1], [1001], [1001], [1001], [7], [1], [7], [1], [3], [1001], [2], [3], [2], [1000], [1]]⟩,
  ⟨a!"ɔ", a!"oh", a!"open_mid back rounded vowel", [[1], [1], [1001], [1001], [1001], [5], [5], [7], [1], [3], [1001], [2], [3], [2], [1000], [1]]⟩,
  ⟨a!"ɵ", a!"ol", a!"close_mid center rounded vowel", [[1], [1], [1001], [1001], [1001], [3], [3], [7], [1], [3], [1001], [2], [3], [2], [1000], [1]]⟩,
  ⟨a!"u", a!"u", a!"close back rounded vowel", [[1], [1], [1001], [1001], [1001], [1], [5], [7], [1], [3], [1001], [2], [3], [2], [1000], [1]]⟩,
  ⟨a!"ʉ", a!"uc", a!"close center rounded vowel", [[1], [1], [1001], [1001], [1001], [1], [3], [7], [1], [3], [1001], [2], [3], [2], [1000], [1]]⟩,
  ⟨a!"ɯ", a!"iu", a!"close back unrounded vowel", [[1], [1], [1001], [1001], [1001], [1], [5], [7], [1], [6], [1001], [2], [3], [2], [1000], [1]]⟩,
  ⟨a!"ʊ", a!"uv", a!"near_close near_back rounded vowel", [[1], [1], [1001], [1001], [1001], [2], [4], [7], [1], [3], [1001], [2], [3], [2], [1000], [1]]⟩,
  ⟨a!"ʌ", a!"ah", a!"open_mid back unrounded vowel", [[1], [1], [1001], [1001], [1001], [5], [5], [7], [1], [6], [1001], [2], [3], [2], [1000], [1]]⟩,
  ⟨a!"y", a!"ui", a!"close front rounded vowel", [[1], [1], [1001], [1001], [1001], [1], [1], [7], [1], [3], [1001], [2], [3], [2], [1000], [1]]⟩,
  ⟨a!"ʏ", a!"uy", a!"near_close near_front rounded vowel", [[1], [1], [1001], [1001], [1001], [2], [2], [7], [1], [3], [1001], [2], [3], [2], [1000], [1]]⟩,
  ⟨a!"b", a!"b", a!"voiced bilabial stop", [[2], [1], [1], [1], [1], [1001], [1001], [1000], [1], [2], [2], [2], [3], [2], [1000], [2]]⟩,
  ⟨a!"ʙ", a!"bb", a!"bilabial trill", [[2], [1], [14], [1], [1], [1001], [1001], [1000], [1000], [2], [2], [2], [3], [2], [1000], [2]]⟩,
  ⟨a!"c", a!"ky", a!"voiceless palatal stop", [[2], [1], [1], [5], [2, 3, 4], [1001], [1001], [1000], [2], [5], [2], [2], [2], [2], [1000], [2]]⟩,
  ⟨a!"ç", a!"hy", a!"voiceless palatal non-sibilant fricative", [[2], [1], [7], [5], [2, 3, 4], [1001], [1001], [1000], [2], [5], [2], [2], [2], [2], [1000], [2]]⟩,
  ⟨a!"ɕ", a!"sy", a!"voiceless palatal sibilant fricative", [[2], [1], [5], [5], [2, 3, 4], [1001], [1001], [1000], [2], [5], [2], [2], [2], [2], [1000], [2]]⟩,
  ⟨a!"d", a!"d", a!"voiced alveolar stop", [[2], [1], [1], [2, 3, 4], [2, 3], [1001], [1001], [1000], [1], [5], [2], [2], [3], [2], [1000], [2]]⟩,
  ⟨a!"ð", a!"dh", a!"voiced dental non-sibilant fricative", [[2], [1], [7], [2], [2], [1001], [1001], [1000], [1], [5], [2], [2], [3], [2], [1000], [2]]⟩,
  ⟨a!"ɖ", a!"dd", a!"voiced retro­flex stop", [[2], [1], [1], [4, 5], [2], [1001], [1001], [1000], [1], [5], [2], [2], [3], [2], [1000], [2]]⟩,
  ⟨a!"f", a!"f", a!"voiceless labio­dental non-sibilant fricative", [[2], [1], [7], [2], [1], [1001], [1001], [1000], [2], [2], [2], [2], [3], [2], [1000], [2]]⟩,
  ⟨a!"ɡ", a!"g", a!"voiced velar stop", [[2], [1], [1], [6], [4], [1001], [1001], [1000], [1], [5], [2], [2], [3], [2], [1000], [2]]⟩,
  ⟨a!"ɢ", a!"j", a!"voiced uvular stop", [[2], [1], [1], [7], [4], [1001], [1001], [1000], [1], [5], [2], [2], [3], [2], [1000], [2]]⟩,
  ⟨a!"ɣ", a!"gh", a!"voiced velar non-sibilant fricative", [[2], [1], [7], [6], [4], [1001], [1001], [1000], [1], [5], [2], [2], [3], [2], [1000], [2]]⟩,
  ⟨a!"h", a!"h", a!"voiceless glottal non-sibilant fricative", [[2], [1], [7], [9], [5], [1001], [1001], [1000], [2], [5], [2], [2], [3], [2], [1000], [2]]⟩,
  ⟨a!"ħ", a!"ch", a!"voiceless pharyngeal non-sibilant fricative", [[2], [1], [7], [8], [5], [1001], [1001], [1000], [2], [5], [2], [2], [3], [2], [1000], [2]]⟩,
  ⟨a!"ʜ", a!"hho", a!"voiceless epiglottal trill", [[2], [1], [14], [8], [5], [1001], [1001], [1000], [2], [5], [2], [2], [3], [2], [1000], [2]]⟩,
  ⟨a!"ɦ", a!"ha", a!"voiced glottal non-sibilant fricative", [[2], [1], [7], [9], [5], [1001], [1001], [1000], [1], [5], [2], [2], [3], [2], [1000], [2]]⟩,
  ⟨a!"j", a!"y", a!"palatal approximant", [[2], [1], [9], [5], [2, 3, 4], [1001], [1001], [1000], [1000], [5], [2], [2], [2], [2], [1000], [2]]⟩,
  ⟨a!"ʝ", a!"yy", a!"voiced palatal non-sibilant fricative", [[2], [1], [7], [5], [2, 3, 4], [1001], [1001], [1000], [1], [5], [2], [2], [2], [2], [1000], [2]]⟩,
  ⟨a!"ɟ", a!"gy", a!"voiced palatal stop", [[2], [1], [1], [5], [2, 3, 4], [1001], [1001], [1000], [1], [5], [2], [2], [2], [2], [1000], [2]]⟩,
  ⟨a!"k", a!"k", a!"voiceless velar stop", [[2], [1], [1], [6], [4], [1001], [1001], [1000], [2], [5], [2], [2], [3], [2], [1000], [2]]⟩,
  ⟨a!"l", a!"l", a!"alveolar lateral approximant", [[2], [1], [9], [2, 3, 4], [2, 3], [1001], [1001], [1000], [1], [5], [1], [2], [3], [2], [1000], [2]]⟩,
  ⟨a!"ʟ", a!"lg", a!"velar lateral approximant", [[2], [1], [9], [6], [4], [1001], [1001], [1000], [1], [5], [1], [2], [3], [2], [1000], [2]]⟩,
  ⟨a!"ɬ", a!"sl", a!"voiceless alveolar lateral fricative", [[2], [1], [7], [2, 3, 4], [2, 3], [1001], [1001], [1000], [2], [5], [1], [2], [3], [2], [1000], [2]]⟩,
  ⟨a!"ɭ", a!"ll", a!"retro­flex lateral approximant", [[2], [1], [9], [4, 5], [2], [1001], [1001], [1000], [1], [5], [1], [2], [3], [2], [1000], [2]]⟩,
  ⟨a!"ꞎ", a!"ssl", a!"voiceless retro­flex lateral fricative", [[2], [1], [7], [4, 5], [2], [1001], [1001], [1000], [2], [5], [1], [2], [3], [2], [1000], [2]]⟩,
  ⟨a!"ɮ", a!"zl", a!"voiced alveolar lateral fricative", [[2], [1], [7], [2, 3, 4], [2, 3], [1001], [1001], [1000], [1], [5], [1], [2], [3], [2], [1000], [2]]⟩,
  ⟨a!"ʎ", a!"ly", a!"palatal lateral approximant", [[2], [1], [9], [5], [2, 3, 4], [1001], [1001], [1000], [1], [5], [1], [2], [2], [2], [1000], [2]]⟩,
  ⟨a!"m", a!"m", a!"voiced bilabial nasal", [[2], [1], [1], [1], [1], [1001], [1001], [1000], [1], [2], [2], [1], [3], [2], [1000], [2]]⟩,
  ⟨a!"ɱ", a!"mi", a!"voiced labio­dental nasal", [[2], [1], [1], [2], [1], [1001], [1001], [1000], [1], [2], [2], [1], [3], [2], [1000], [2]]⟩,
  ⟨a!"n", a!"n", a!"voiced alveolar nasal", [[2], [1], [1], [2, 3, 4], [2, 3], [1001], [1001], [1000], [1], [5], [2], [1], [3], [2], [1000], [2]]⟩,
  ⟨a!"ɴ", a!"nj", a!"voiced uvular nasal", [[2], [1], [1], [7], [4], [1001], [1001], [1000], [1], [5], [2], [1], [3], [2], [1000], [2]]⟩,
  ⟨a!"ɲ", a!"ny", a!"voiced palatal nasal", [[2], [1], [1], [5], [2, 3, 4], [1001], [1001], [1000], [1], [5], [2], [1], [2], [2], [1000], [2]]⟩,
  ⟨a!"ɳ", a!"nn", a!"voiced retro­flex nasal", [[2], [1], [1], [4, 5], [2], [1001], [1001], [1000], [1], [5], [2], [1], [3], [2], [1000], [2]]⟩,
  ⟨a!"ŋ", a!"ng", a!"voiced velar nasal", [[2], [1], [1], [6], [4], [1001], [1001], [1000], [1], [5], [2], [1], [3], [2], [1000], [2]]⟩,
  ⟨a!"p", a!"p", a!"voiceless bilabial stop", [[2], [1], [1], [1], [1], [1001], [1001], [1000], [2], [2], [2], [2], [3], [2], [1000], [2]]⟩,
  ⟨a!"ɸ", a!"ph", a!"voiceless bilabial non-sibilant fricative", [[2], [1], [7], [1], [1], [1001], [1001], [1000], [2], [2], [2], [2], [3], [2], [1000], [2]]⟩,
  ⟨a!"q", a!"q", a!"voiceless uvular stop", [[2], [1], [1], [7], [4], [1001], [1001], [1000], [2], [5], [2], [2], [3], [2], [1000], [2]]⟩,
  ⟨a!"r", a!"r", a!"alveolar trill", [[2], [1], [14], [2, 3, 4], [2, 3], [1001], [1001], [1000], [1000], [5], [2], [2], [3], [2], [1000], [2]]⟩,
  ⟨a!"ʀ", a!"rj", a!"uvular trill", [[2], [1], [14], [7], [4], [1001], [1001], [1000], [1000], [5], [2], [2], [3], [2], [1000], [2]]⟩,
  ⟨a!"ɹ", a!"ru", a!"alveolar approximant", [[2], [1], [9], [2, 3, 4], [2, 3], [1001], [1001], [1000], [1000], [5], [2], [2], [3], [2], [1000], [2]]⟩,
  ⟨a!"ɺ", a!"rl", a!"alveolar lateral flap", [[2], [1], [12], [2, 3, 4], [2, 3], [1001], [1001], [1000], [1], [5], [1], [2], [3], [2], [1000], [2]]⟩,
  ⟨a!"ɻ", a!"rru", a!"retro­flex approximant", [[2], [1], [9], [4, 5], [2], [1001], [1001], [1000], [1000], [5], [2], [2], [3], [2], [1000], [2]]⟩,
  ⟨a!"ɽ", a!"rd", a!"retro­flex flap", [[2], [1], [12], [4, 5], [2], [1001], [1001], [1000], [1000], [5], [2], [2], [3], [2], [1000], [2]]⟩,
  ⟨a!"ɾ", a!"rt", a!"alveolar flap", [[2], [1], [12], [2, 3, 4], [2, 3], [1001], [1001], [1000], [1000], [5], [2], [2], [3], [2], [1000], [2]]⟩,
  ⟨a!"ʁ", a!"jh", a!"voiced uvular non-sibilant fricative", [[2], [1], [7], [7], [4], [1001], [1001], [1000], [1], [5], [2], [2], [3], [2], [1000], [2]]⟩,
  ⟨a!"s", a!"s", a!"voiceless alveolar sibilant fricative", [[2], [1], [5], [2, 3], [2, 3], [1001], [1001], [1000], [2], [5], [2], [2], [3], [2], [1000], [2]]⟩,
  ⟨a!"ʂ", a!"ss", a!"voiceless retro­flex sibilant fricative", [[2], [1], [5], [4, 5], [2], [1001], [1001], [1000], [2], [5], [2], [2], [3], [2], [1000], [2]]⟩,
  ⟨a!"ʃ", a!"sh", a!"voiceless post­alveolar sibilant fricative", [[2], [1], [5], [4], [3], [1001], [1001], [1000], [2], [5], [2], [2], [1], [2], [1000], [2]]⟩,
  ⟨a!"t", a!"t", a!"voiceless alveolar stop", [[2], [1], [1], [2, 3, 4], [2, 3], [1001], [1001], [1000], [2], [5], [2], [2], [3], [2], [1000], [2]]⟩,
  ⟨a!"ʈ", a!"tt", a!"voiceless retro­flex stop", [[2], [1], [1], [4, 5], [2], [1001], [1001], [1000], [2], [5], [2], [2], [3], [2], [1000], [2]]⟩,
  ⟨a!"ɰ", a!"gu", a!"velar approximant", [[2], [1], [9], [6], [4], [1001], [1001], [1000], [1000], [5], [2], [2], [3], [2], [1000], [2]]⟩,
  ⟨a!"v", a!"v", a!"voiced labio­dental non-sibilant fricative", [[2], [1], [7], [2], [1], [1001], [1001], [1000], [1], [2], [2], [2], [3], [2], [1000], [2]]⟩,
  ⟨a!"ʋ", a!"vu", a!"labio­dental approximant", [[2], [1], [9], [2], [1], [1001], [1001], [1000], [1000], [2], [2], [2], [3], [2], [1000], [2]]⟩,
  ⟨a!"ⱱ", a!"vt", a!"labio­dental flap", [[2], [1], [12], [2], [1], [1001], [1001], [1000], [1000], [2], [2], [2], [3], [2], [1000], [2]]⟩,
  ⟨a!"x", a!"kh", a!"voiceless velar non-sibilant fricative", [[2], [1], [7], [6], [4], [1001], [1001], [1000], [2], [5], [2], [2], [3], [2], [1000], [2]]⟩,
  ⟨a!"z", a!"z", a!"voiced alveolar sibilant fricative", [[2], [1], [5], [2, 3], [2, 3], [1001], [1001], [1000], [1], [5], [2], [2], [3], [2], [1000], [2]]⟩,
  ⟨a!"ʐ", a!"zz", a!"voiced retro­flex sibilant fricative", [[2], [1], [5], [4, 5], [2], [1001], [1001], [1000], [1], [5], [2], [2], [3], [2], [1000], [2]]⟩,
  ⟨a!"ʑ", a!"zy", a!"voiced palatal sibilant fricative", [[2], [1], [5], [5], [2, 3, 4], [1001], [1001], [1000], [1], [5], [2], [2], [2], [2], [1000], [2]]⟩,
  ⟨a!"ʒ", a!"zh", a!"voiced post­alveolar sibilant fricative", [[2], [1], [5], [4], [3], [1001], [1001], [1000], [1], [5], [2], [2], [1], [2], [1000], [2]]⟩,
  ⟨a!"ʔ", a!"x", a!"glottal stop", [[2], [1], [1], [9], [5], [1001], [1001], [1000], [2], [5], [2], [2], [3], [2], [1000], [2]]⟩,
  ⟨a!"ʕ", a!"cha", a!"voiced pharyngeal non-sibilant fricative", [[2], [1], [7], [8], [5], [1001], [1001], [1000], [1], [5], [2], [2], [3], [2], [1000], [2]]⟩,
  ⟨a!"ʡ", a!"c", a!"epiglottal stop", [[2], [1], [1], [8], [5], [1001], [1001], [1000], [2], [5], [2], [2], [3], [2], [1000], [2]]⟩,
  ⟨a!"ʢ", a!"hh", a!"epiglottal trill", [[2], [1], [14], [8], [5], [1001], [1001], [1000], [1000], [5], [2], [2], [3], [2], [1000], [2]]⟩,
  ⟨a!"β", a!"bh", a!"voiced bilabial non-sibilant fricative", [[2], [1], [7], [1], [1], [1001], [1001], [1000], [1], [2], [2], [2], [3], [2], [1000], [2]]⟩,
  ⟨a!"θ", a!"th", a!"voiceless dental non-sibilant fricative", [[2], [1], [7], [2], [2], [1001], [1001], [1000], [2], [5], [2], [2], [3], [2], [1000], [2]]⟩,
  ⟨a!"χ", a!"qh", a!"voiceless uvular non-sibilant fricative", [[2], [1], [7], [7], [4], [1001], [1001], [1000], [2], [5], [2], [2], [3], [2], [1000], [2]]⟩,
  ⟨a!"ɥ", a!"yw", a!"labial-palatal approximant", [[2], [1], [9], [5], [2, 3, 4], [1001], [1001], [1000], [1000], [2], [2], [2], [2], [2], [1000], [2]]⟩,
  ⟨a!"ʍ", a!"hw", a!"voiceless labial-velar fricative", [[2], [1], [7], [6], [4], [1001], [1001], [1000], [2], [2], [2], [2], [3], [2], [1000], [2]]⟩,
  ⟨a!"w", a!"w", a!"labial-velar approximant", [[2], [1], [9], [6], [4], [1001], [1001], [1000], [1000], [2], [2], [2], [3], [2], [1000], [2]]⟩,
  ⟨a!"ɧ", a!"sj", a!"voiceless palatal-velar fricative", [[2], [1], [7], [6], [4], [1001], [1001], [1000], [2], [5], [2], [2], [2], [2], [1000], [2]]⟩,
  ⟨a!"ɫ", a!"lw", a!"labial-velar lateral approximant", [[2], [1], [9], [6], [4], [1001], [1001], [1000], [1], [2], [1], [2], [3], [2], [1000], [2]]⟩]

/-- Four times the distance of two values of an aspect, which are given by their numbers; 0 and 15
stand for `any` and `n_a`. -/
def quarters : List (List (List Nat)) := [
  -- ph_class
  [[0, 0, 0, 0, 0, 0, 0, 0, 0, 0, 0, 0, 0, 0, 0, 0],
   [0, 0, 4, 0, 0, 0, 0, 0, 0, 0, 0, 0, 0, 0, 0, 4],
   [0, 4, 0, 0, 0, 0, 0, 0, 0, 0, 0, 0, 0, 0, 0, 4],
   [0, 0, 0, 0, 0, 0, 0, 0, 0, 0, 0, 0, 0, 0, 0, 0],
   [0, 0, 0, 0, 0, 0, 0, 0, 0, 0, 0, 0, 0, 0, 0, 0],
   [0, 0, 0, 0, 0, 0, 0, 0, 0, 0, 0, 0, 0, 0, 0, 0],
   [0, 0, 0, 0, 0, 0, 0, 0, 0, 0, 0, 0, 0, 0, 0, 0],
   [0, 0, 0, 0, 0, 0, 0, 0, 0, 0, 0, 0, 0, 0, 0, 0],
   [0, 0, 0, 0, 0, 0, 0, 0, 0, 0, 0, 0, 0, 0, 0, 0],
   [0, 0, 0, 0, 0, 0, 0, 0, 0, 0, 0, 0, 0, 0, 0, 0],
   [0, 0, 0, 0, 0, 0, 0, 0, 0, 0, 0, 0, 0, 0, 0, 0],
   [0, 0, 0, 0, 0, 0, 0, 0, 0, 0, 0, 0, 0, 0, 0, 0],
   [0, 0, 0, 0, 0, 0, 0, 0, 0, 0, 0, 0, 0, 0, 0, 0],
   [0, 0, 0, 0, 0, 0, 0, 0, 0, 0, 0, 0, 0, 0, 0, 0],
   [0, 0, 0, 0, 0, 0, 0, 0, 0, 0, 0, 0, 0, 0, 0, 0],
   [0, 4, 4, 0, 0, 0, 0, 0, 0, 0, 0, 0, 0, 0, 0, 0]],
  -- airstream
  [[0, 0, 0, 0, 0, 0, 0, 0, 0, 0, 0, 0, 0, 0, 0, 0],
   [0, 0, 0, 4, 4, 4, 0, 0, 0, 0, 0, 0, 0, 0, 0, 4],
   [0, 0, 0, 0, 0, 0, 0, 0, 0, 0, 0, 0, 0, 0, 0, 0],
   [0, 4, 0, 0, 0, 4, 0, 0, 0, 0, 0, 0, 0, 0, 0, 4],
   [0, 4, 0, 0, 0, 4, 0, 0, 0, 0, 0, 0, 0, 0, 0, 4],
   [0, 4, 0, 4, 4, 0, 0, 0, 0, 0, 0, 0, 0, 0, 0, 4],
   [0, 0, 0, 0, 0, 0, 0, 0, 0, 0, 0, 0, 0, 0, 0, 0],
   [0, 0, 0, 0, 0, 0, 0, 0, 0, 0, 0, 0, 0, 0, 0, 0],
   [0, 0, 0, 0, 0, 0, 0, 0, 0, 0, 0, 0, 0, 0, 0, 0],
   [0, 0, 0, 0, 0, 0, 0, 0, 0, 0, 0, 0, 0, 0, 0, 0],
   [0, 0, 0, 0, 0, 0, 0, 0, 0, 0, 0, 0, 0, 0, 0, 0],
   [0, 0, 0, 0, 0, 0, 0, 0, 0, 0, 0, 0, 0, 0, 0, 0],
   [0, 0, 0, 0, 0, 0, 0, 0, 0, 0, 0, 0, 0, 0, 0, 0],
   [0, 0, 0, 0, 0, 0, 0, 0, 0, 0, 0, 0, 0, 0, 0, 0],
   [0, 0, 0, 0, 0, 0, 0, 0, 0, 0, 0, 0, 0, 0, 0, 0],
   [0, 4, 0, 4, 4, 4, 0, 0, 0, 0, 0, 0, 0, 0, 0, 0]],
  -- manner
  [[0, 0, 0, 0, 0, 0, 0, 0, 0, 0, 0, 0, 0, 0, 0, 0],
   [0, 0, 0, 4, 0, 4, 4, 4, 0, 8, 0, 0, 8, 8, 8, 8],
   [0, 0, 0, 0, 0, 0, 0, 0, 0, 0, 0, 0, 0, 0, 0, 0],
   [0, 4, 0, 0, 0, 0, 0, 0, 0, 4, 0, 0, 4, 4, 4, 8],
   [0, 0, 0, 0, 0, 0, 0, 0, 0, 0, 0, 0, 0, 0, 0, 0],
   [0, 4, 0, 0, 0, 0, 1, 2, 0, 4, 0, 0, 4, 4, 4, 8],
   [0, 4, 0, 0, 0, 1, 0, 1, 0, 4, 0, 0, 4, 4, 4, 8],
   [0, 4, 0, 0, 0, 2, 1, 0, 0, 4, 0, 0, 4, 4, 4, 8],
   [0, 0, 0, 0, 0, 0, 0, 0, 0, 0, 0, 0, 0, 0, 0, 0],
   [0, 8, 0, 4, 0, 4, 4, 4, 0, 0, 0, 0, 4, 4, 4, 8],
   [0, 0, 0, 0, 0, 0, 0, 0, 0, 0, 0, 0, 0, 0, 0, 0],
   [0, 0, 0, 0, 0, 0, 0, 0, 0, 0, 0, 0, 0, 0, 0, 0],
   [0, 8, 0, 4, 0, 4, 4, 4, 0, 4, 0, 0, 0, 0, 2, 8],
   [0, 8, 0, 4, 0, 4, 4, 4, 0, 4, 0, 0, 0, 0, 2, 8],
   [0, 8, 0, 4, 0, 4, 4, 4, 0, 4, 0, 0, 2, 2, 0, 8],
   [0, 8, 0, 8, 0, 8, 8, 8, 0, 8, 0, 0, 8, 8, 8, 0]],
  -- place
  [[0, 0, 0, 0, 0, 0, 0, 0, 0, 0, 0, 0, 0, 0, 0, 0],
   [0, 0, 2, 4, 6, 8, 10, 12, 14, 16, 0, 0, 0, 0, 0, 16],
   [0, 2, 0, 2, 4, 6, 8, 10, 12, 14, 0, 0, 0, 0, 0, 16],
   [0, 4, 2, 0, 2, 4, 6, 8, 10, 12, 0, 0, 0, 0, 0, 16],
   [0, 6, 4, 2, 0, 2, 4, 6, 8, 10, 0, 0, 0, 0, 0, 16],
   [0, 8, 6, 4, 2, 0, 2, 4, 6, 8, 0, 0, 0, 0, 0, 16],
   [0, 10, 8, 6, 4, 2, 0, 2, 4, 6, 0, 0, 0, 0, 0, 16],
   [0, 12, 10, 8, 6, 4, 2, 0, 2, 4, 0, 0, 0, 0, 0, 16],
   [0, 14, 12, 10, 8, 6, 4, 2, 0, 2, 0, 0, 0, 0, 0, 16],
   [0, 16, 14, 12, 10, 8, 6, 4, 2, 0, 0, 0, 0, 0, 0, 16],
   [0, 0, 0, 0, 0, 0, 0, 0, 0, 0, 0, 0, 0, 0, 0, 0],
   [0, 0, 0, 0, 0, 0, 0, 0, 0, 0, 0, 0, 0, 0, 0, 0],
   [0, 0, 0, 0, 0, 0, 0, 0, 0, 0, 0, 0, 0, 0, 0, 0],
   [0, 0, 0, 0, 0, 0, 0, 0, 0, 0, 0, 0, 0, 0, 0, 0],
   [0, 0, 0, 0, 0, 0, 0, 0, 0, 0, 0, 0, 0, 0, 0, 0],
   [0, 16, 16, 16, 16, 16, 16, 16, 16, 16, 0, 0, 0, 0, 0, 0]],
  -- articulator
  [[0, 0, 0, 0, 0, 0, 0, 0, 0, 0, 0, 0, 0, 0, 0, 0],
   [0, 0, 2, 2, 2, 2, 0, 0, 0, 0, 0, 0, 0, 0, 0, 2],
   [0, 2, 0, 2, 2, 2, 0, 0, 0, 0, 0, 0, 0, 0, 0, 2],
   [0, 2, 2, 0, 2, 2, 0, 0, 0, 0, 0, 0, 0, 0, 0, 2],
   [0, 2, 2, 2, 0, 2, 0, 0, 0, 0, 0, 0, 0, 0, 0, 2],
   [0, 2, 2, 2, 2, 0, 0, 0, 0, 0, 0, 0, 0, 0, 0, 2],
   [0, 0, 0, 0, 0, 0, 0, 0, 0, 0, 0, 0, 0, 0, 0, 0],
   [0, 0, 0, 0, 0, 0, 0, 0, 0, 0, 0, 0, 0, 0, 0, 0],
   [0, 0, 0, 0, 0, 0, 0, 0, 0, 0, 0, 0, 0, 0, 0, 0],
   [0, 0, 0, 0, 0, 0, 0, 0, 0, 0, 0, 0, 0, 0, 0, 0],
   [0, 0, 0, 0, 0, 0, 0, 0, 0, 0, 0, 0, 0, 0, 0, 0],
   [0, 0, 0, 0, 0, 0, 0, 0, 0, 0, 0, 0, 0, 0, 0, 0],
   [0, 0, 0, 0, 0, 0, 0, 0, 0, 0, 0, 0, 0, 0, 0, 0],
   [0, 0, 0, 0, 0, 0, 0, 0, 0, 0, 0, 0, 0, 0, 0, 0],
   [0, 0, 0, 0, 0, 0, 0, 0, 0, 0, 0, 0, 0, 0, 0, 0],
   [0, 2, 2, 2, 2, 2, 0, 0, 0, 0, 0, 0, 0, 0, 0, 0]],
  -- height
  [[0, 0, 0, 0, 0, 0, 0, 0, 0, 0, 0, 0, 0, 0, 0, 0],
   [0, 0, 2, 4, 6, 8, 10, 12, 0, 0, 0, 0, 0, 0, 0, 12],
   [0, 2, 0, 2, 4, 6, 8, 10, 0, 0, 0, 0, 0, 0, 0, 12],
   [0, 4, 2, 0, 2, 4, 6, 8, 0, 0, 0, 0, 0, 0, 0, 12],
   [0, 6, 4, 2, 0, 2, 4, 6, 0, 0, 0, 0, 0, 0, 0, 12],
   [0, 8, 6, 4, 2, 0, 2, 4, 0, 0, 0, 0, 0, 0, 0, 12],
   [0, 10, 8, 6, 4, 2, 0, 2, 0, 0, 0, 0, 0, 0, 0, 12],
   [0, 12, 10, 8, 6, 4, 2, 0, 0, 0, 0, 0, 0, 0, 0, 12],
   [0, 0, 0, 0, 0, 0, 0, 0, 0, 0, 0, 0, 0, 0, 0, 0],
   [0, 0, 0, 0, 0, 0, 0, 0, 0, 0, 0, 0, 0, 0, 0, 0],
   [0, 0, 0, 0, 0, 0, 0, 0, 0, 0, 0, 0, 0, 0, 0, 0],
   [0, 0, 0, 0, 0, 0, 0, 0, 0, 0, 0, 0, 0, 0, 0, 0],
   [0, 0, 0, 0, 0, 0, 0, 0, 0, 0, 0, 0, 0, 0, 0, 0],
   [0, 0, 0, 0, 0, 0, 0, 0, 0, 0, 0, 0, 0, 0, 0, 0],
   [0, 0, 0, 0, 0, 0, 0, 0, 0, 0, 0, 0, 0, 0, 0, 0],
   [0, 12, 12, 12, 12, 12, 12, 12, 0, 0, 0, 0, 0, 0, 0, 0]],
  -- backness
  [[0, 0, 0, 0, 0, 0, 0, 0, 0, 0, 0, 0, 0, 0, 0, 0],
   [0, 0, 2, 4, 6, 8, 0, 0, 0, 0, 0, 0, 0, 0, 0, 8],
   [0, 2, 0, 2, 4, 6, 0, 0, 0, 0, 0, 0, 0, 0, 0, 8],
   [0, 4, 2, 0, 2, 4, 0, 0, 0, 0, 0, 0, 0, 0, 0, 8],
   [0, 6, 4, 2, 0, 2, 0, 0, 0, 0, 0, 0, 0, 0, 0, 8],
   [0, 8, 6, 4, 2, 0, 0, 0, 0, 0, 0, 0, 0, 0, 0, 8],
   [0, 0, 0, 0, 0, 0, 0, 0, 0, 0, 0, 0, 0, 0, 0, 0],
   [0, 0, 0, 0, 0, 0, 0, 0, 0, 0, 0, 0, 0, 0, 0, 0],
   [0, 0, 0, 0, 0, 0, 0, 0, 0, 0, 0, 0, 0, 0, 0, 0],
   [0, 0, 0, 0, 0, 0, 0, 0, 0, 0, 0, 0, 0, 0, 0, 0],
   [0, 0, 0, 0, 0, 0, 0, 0, 0, 0, 0, 0, 0, 0, 0, 0],
   [0, 0, 0, 0, 0, 0, 0, 0, 0, 0, 0, 0, 0, 0, 0, 0],
   [0, 0, 0, 0, 0, 0, 0, 0, 0, 0, 0, 0, 0, 0, 0, 0],
   [0, 0, 0, 0, 0, 0, 0, 0, 0, 0, 0, 0, 0, 0, 0, 0],
   [0, 0, 0, 0, 0, 0, 0, 0, 0, 0, 0, 0, 0, 0, 0, 0],
   [0, 8, 8, 8, 8, 8, 0, 0, 0, 0, 0, 0, 0, 0, 0, 0]],
  -- breathiness
  [[0, 0, 0, 0, 0, 0, 0, 0, 0, 0, 0, 0, 0, 0, 0, 0],
   [0, 0, 0, 0, 0, 0, 0, 0, 0, 0, 0, 0, 0, 0, 0, 0],
   [0, 0, 0, 0, 0, 0, 4, 4, 0, 0, 0, 0, 0, 0, 0, 4],
   [0, 0, 0, 0, 0, 0, 4, 4, 0, 0, 0, 0, 0, 0, 0, 4],
   [0, 0, 0, 0, 0, 0, 4, 4, 0, 0, 0, 0, 0, 0, 0, 4],
   [0, 0, 0, 0, 0, 0, 0, 0, 0, 0, 0, 0, 0, 0, 0, 0],
   [0, 0, 4, 4, 4, 0, 0, 0, 0, 0, 0, 0, 0, 0, 0, 4],
   [0, 0, 4, 4, 4, 0, 0, 0, 0, 0, 0, 0, 0, 0, 0, 4],
   [0, 0, 0, 0, 0, 0, 0, 0, 0, 0, 0, 0, 0, 0, 0, 0],
   [0, 0, 0, 0, 0, 0, 0, 0, 0, 0, 0, 0, 0, 0, 0, 0],
   [0, 0, 0, 0, 0, 0, 0, 0, 0, 0, 0, 0, 0, 0, 0, 0],
   [0, 0, 0, 0, 0, 0, 0, 0, 0, 0, 0, 0, 0, 0, 0, 0],
   [0, 0, 0, 0, 0, 0, 0, 0, 0, 0, 0, 0, 0, 0, 0, 0],
   [0, 0, 0, 0, 0, 0, 0, 0, 0, 0, 0, 0, 0, 0, 0, 0],
   [0, 0, 0, 0, 0, 0, 0, 0, 0, 0, 0, 0, 0, 0, 0, 0],
   [0, 0, 4, 4, 4, 0, 4, 4, 0, 0, 0, 0, 0, 0, 0, 0]],
  -- voicing
  [[0, 0, 0, 0, 0, 0, 0, 0, 0, 0, 0, 0, 0, 0, 0, 0],
   [0, 0, 4, 0, 0, 0, 0, 0, 0, 0, 0, 0, 0, 0, 0, 4],
   [0, 4, 0, 0, 0, 0, 0, 0, 0, 0, 0, 0, 0, 0, 0, 4],
   [0, 0, 0, 0, 0, 0, 0, 0, 0, 0, 0, 0, 0, 0, 0, 0],
   [0, 0, 0, 0, 0, 0, 0, 0, 0, 0, 0, 0, 0, 0, 0, 0],
   [0, 0, 0, 0, 0, 0, 0, 0, 0, 0, 0, 0, 0, 0, 0, 0],
   [0, 0, 0, 0, 0, 0, 0, 0, 0, 0, 0, 0, 0, 0, 0, 0],
   [0, 0, 0, 0, 0, 0, 0, 0, 0, 0, 0, 0, 0, 0, 0, 0],
   [0, 0, 0, 0, 0, 0, 0, 0, 0, 0, 0, 0, 0, 0, 0, 0],
   [0, 0, 0, 0, 0, 0, 0, 0, 0, 0, 0, 0, 0, 0, 0, 0],
   [0, 0, 0, 0, 0, 0, 0, 0, 0, 0, 0, 0, 0, 0, 0, 0],
   [0, 0, 0, 0, 0, 0, 0, 0, 0, 0, 0, 0, 0, 0, 0, 0],
   [0, 0, 0, 0, 0, 0, 0, 0, 0, 0, 0, 0, 0, 0, 0, 0],
   [0, 0, 0, 0, 0, 0, 0, 0, 0, 0, 0, 0, 0, 0, 0, 0],
   [0, 0, 0, 0, 0, 0, 0, 0, 0, 0, 0, 0, 0, 0, 0, 0],
   [0, 4, 4, 0, 0, 0, 0, 0, 0, 0, 0, 0, 0, 0, 0, 0]],
  -- labialization
  [[0, 0, 0, 0, 0, 0, 0, 0, 0, 0, 0, 0, 0, 0, 0, 0],
   [0, 0, 0, 0, 0, 0, 0, 0, 0, 0, 0, 0, 0, 0, 0, 0],
   [0, 0, 0, 0, 0, 4, 4, 0, 0, 0, 0, 0, 0, 0, 0, 4],
   [0, 0, 0, 0, 0, 4, 4, 0, 0, 0, 0, 0, 0, 0, 0, 4],
   [0, 0, 0, 0, 0, 0, 0, 0, 0, 0, 0, 0, 0, 0, 0, 0],
   [0, 0, 4, 4, 0, 0, 0, 0, 0, 0, 0, 0, 0, 0, 0, 4],
   [0, 0, 4, 4, 0, 0, 0, 0, 0, 0, 0, 0, 0, 0, 0, 4],
   [0, 0, 0, 0, 0, 0, 0, 0, 0, 0, 0, 0, 0, 0, 0, 0],
   [0, 0, 0, 0, 0, 0, 0, 0, 0, 0, 0, 0, 0, 0, 0, 0],
   [0, 0, 0, 0, 0, 0, 0, 0, 0, 0, 0, 0, 0, 0, 0, 0],
   [0, 0, 0, 0, 0, 0, 0, 0, 0, 0, 0, 0, 0, 0, 0, 0],
   [0, 0, 0, 0, 0, 0, 0, 0, 0, 0, 0, 0, 0, 0, 0, 0],
   [0, 0, 0, 0, 0, 0, 0, 0, 0, 0, 0, 0, 0, 0, 0, 0],
   [0, 0, 0, 0, 0, 0, 0, 0, 0, 0, 0, 0, 0, 0, 0, 0],
   [0, 0, 0, 0, 0, 0, 0, 0, 0, 0, 0, 0, 0, 0, 0, 0],
   [0, 0, 4, 4, 0, 4, 4, 0, 0, 0, 0, 0, 0, 0, 0, 0]],
  -- lateralization
  [[0, 0, 0, 0, 0, 0, 0, 0, 0, 0, 0, 0, 0, 0, 0, 0],
   [0, 0, 4, 0, 0, 0, 0, 0, 0, 0, 0, 0, 0, 0, 0, 4],
   [0, 4, 0, 0, 0, 0, 0, 0, 0, 0, 0, 0, 0, 0, 0, 4],
   [0, 0, 0, 0, 0, 0, 0, 0, 0, 0, 0, 0, 0, 0, 0, 0],
   [0, 0, 0, 0, 0, 0, 0, 0, 0, 0, 0, 0, 0, 0, 0, 0],
   [0, 0, 0, 0, 0, 0, 0, 0, 0, 0, 0, 0, 0, 0, 0, 0],
   [0, 0, 0, 0, 0, 0, 0, 0, 0, 0, 0, 0, 0, 0, 0, 0],
   [0, 0, 0, 0, 0, 0, 0, 0, 0, 0, 0, 0, 0, 0, 0, 0],
   [0, 0, 0, 0, 0, 0, 0, 0, 0, 0, 0, 0, 0, 0, 0, 0],
   [0, 0, 0, 0, 0, 0, 0, 0, 0, 0, 0, 0, 0, 0, 0, 0],
   [0, 0, 0, 0, 0, 0, 0, 0, 0, 0, 0, 0, 0, 0, 0, 0],
   [0, 0, 0, 0, 0, 0, 0, 0, 0, 0, 0, 0, 0, 0, 0, 0],
   [0, 0, 0, 0, 0, 0, 0, 0, 0, 0, 0, 0, 0, 0, 0, 0],
   [0, 0, 0, 0, 0, 0, 0, 0, 0, 0, 0, 0, 0, 0, 0, 0],
   [0, 0, 0, 0, 0, 0, 0, 0, 0, 0, 0, 0, 0, 0, 0, 0],
   [0, 4, 4, 0, 0, 0, 0, 0, 0, 0, 0, 0, 0, 0, 0, 0]],
  -- nasalization
  [[0, 0, 0, 0, 0, 0, 0, 0, 0, 0, 0, 0, 0, 0, 0, 0],
   [0, 0, 4, 0, 0, 0, 0, 0, 0, 0, 0, 0, 0, 0, 0, 4],
   [0, 4, 0, 0, 0, 0, 0, 0, 0, 0, 0, 0, 0, 0, 0, 4],
   [0, 0, 0, 0, 0, 0, 0, 0, 0, 0, 0, 0, 0, 0, 0, 0],
   [0, 0, 0, 0, 0, 0, 0, 0, 0, 0, 0, 0, 0, 0, 0, 0],
   [0, 0, 0, 0, 0, 0, 0, 0, 0, 0, 0, 0, 0, 0, 0, 0],
   [0, 0, 0, 0, 0, 0, 0, 0, 0, 0, 0, 0, 0, 0, 0, 0],
   [0, 0, 0, 0, 0, 0, 0, 0, 0, 0, 0, 0, 0, 0, 0, 0],
   [0, 0, 0, 0, 0, 0, 0, 0, 0, 0, 0, 0, 0, 0, 0, 0],
   [0, 0, 0, 0, 0, 0, 0, 0, 0, 0, 0, 0, 0, 0, 0, 0],
   [0, 0, 0, 0, 0, 0, 0, 0, 0, 0, 0, 0, 0, 0, 0, 0],
   [0, 0, 0, 0, 0, 0, 0, 0, 0, 0, 0, 0, 0, 0, 0, 0],
   [0, 0, 0, 0, 0, 0, 0, 0, 0, 0, 0, 0, 0, 0, 0, 0],
   [0, 0, 0, 0, 0, 0, 0, 0, 0, 0, 0, 0, 0, 0, 0, 0],
   [0, 0, 0, 0, 0, 0, 0, 0, 0, 0, 0, 0, 0, 0, 0, 0],
   [0, 4, 4, 0, 0, 0, 0, 0, 0, 0, 0, 0, 0, 0, 0, 0]],
  -- palatalization
  [[0, 0, 0, 0, 0, 0, 0, 0, 0, 0, 0, 0, 0, 0, 0, 0],
   [0, 0, 2, 4, 0, 0, 0, 0, 0, 0, 0, 0, 0, 0, 0, 4],
   [0, 2, 0, 2, 0, 0, 0, 0, 0, 0, 0, 0, 0, 0, 0, 4],
   [0, 4, 2, 0, 0, 0, 0, 0, 0, 0, 0, 0, 0, 0, 0, 4],
   [0, 0, 0, 0, 0, 0, 0, 0, 0, 0, 0, 0, 0, 0, 0, 0],
   [0, 0, 0, 0, 0, 0, 0, 0, 0, 0, 0, 0, 0, 0, 0, 0],
   [0, 0, 0, 0, 0, 0, 0, 0, 0, 0, 0, 0, 0, 0, 0, 0],
   [0, 0, 0, 0, 0, 0, 0, 0, 0, 0, 0, 0, 0, 0, 0, 0],
   [0, 0, 0, 0, 0, 0, 0, 0, 0, 0, 0, 0, 0, 0, 0, 0],
   [0, 0, 0, 0, 0, 0, 0, 0, 0, 0, 0, 0, 0, 0, 0, 0],
   [0, 0, 0, 0, 0, 0, 0, 0, 0, 0, 0, 0, 0, 0, 0, 0],
   [0, 0, 0, 0, 0, 0, 0, 0, 0, 0, 0, 0, 0, 0, 0, 0],
   [0, 0, 0, 0, 0, 0, 0, 0, 0, 0, 0, 0, 0, 0, 0, 0],
   [0, 0, 0, 0, 0, 0, 0, 0, 0, 0, 0, 0, 0, 0, 0, 0],
   [0, 0, 0, 0, 0, 0, 0, 0, 0, 0, 0, 0, 0, 0, 0, 0],
   [0, 4, 4, 4, 0, 0, 0, 0, 0, 0, 0, 0, 0, 0, 0, 0]],
  -- rhoticization
  [[0, 0, 0, 0, 0, 0, 0, 0, 0, 0, 0, 0, 0, 0, 0, 0],
   [0, 0, 4, 0, 0, 0, 0, 0, 0, 0, 0, 0, 0, 0, 0, 4],
   [0, 4, 0, 0, 0, 0, 0, 0, 0, 0, 0, 0, 0, 0, 0, 4],
   [0, 0, 0, 0, 0, 0, 0, 0, 0, 0, 0, 0, 0, 0, 0, 0],
   [0, 0, 0, 0, 0, 0, 0, 0, 0, 0, 0, 0, 0, 0, 0, 0],
   [0, 0, 0, 0, 0, 0, 0, 0, 0, 0, 0, 0, 0, 0, 0, 0],
   [0, 0, 0, 0, 0, 0, 0, 0, 0, 0, 0, 0, 0, 0, 0, 0],
   [0, 0, 0, 0, 0, 0, 0, 0, 0, 0, 0, 0, 0, 0, 0, 0],
   [0, 0, 0, 0, 0, 0, 0, 0, 0, 0, 0, 0, 0, 0, 0, 0],
   [0, 0, 0, 0, 0, 0, 0, 0, 0, 0, 0, 0, 0, 0, 0, 0],
   [0, 0, 0, 0, 0, 0, 0, 0, 0, 0, 0, 0, 0, 0, 0, 0],
   [0, 0, 0, 0, 0, 0, 0, 0, 0, 0, 0, 0, 0, 0, 0, 0],
   [0, 0, 0, 0, 0, 0, 0, 0, 0, 0, 0, 0, 0, 0, 0, 0],
   [0, 0, 0, 0, 0, 0, 0, 0, 0, 0, 0, 0, 0, 0, 0, 0],
   [0, 0, 0, 0, 0, 0, 0, 0, 0, 0, 0, 0, 0, 0, 0, 0],
   [0, 4, 4, 0, 0, 0, 0, 0, 0, 0, 0, 0, 0, 0, 0, 0]],
  -- duration
  [[0, 0, 0, 0, 0, 0, 0, 0, 0, 0, 0, 0, 0, 0, 0, 0],
   [0, 0, 2, 4, 6, 8, 0, 0, 0, 0, 0, 0, 0, 0, 0, 8],
   [0, 2, 0, 2, 4, 6, 0, 0, 0, 0, 0, 0, 0, 0, 0, 8],
   [0, 4, 2, 0, 2, 4, 0, 0, 0, 0, 0, 0, 0, 0, 0, 8],
   [0, 6, 4, 2, 0, 2, 0, 0, 0, 0, 0, 0, 0, 0, 0, 8],
   [0, 8, 6, 4, 2, 0, 0, 0, 0, 0, 0, 0, 0, 0, 0, 8],
   [0, 0, 0, 0, 0, 0, 0, 0, 0, 0, 0, 0, 0, 0, 0, 0],
   [0, 0, 0, 0, 0, 0, 0, 0, 0, 0, 0, 0, 0, 0, 0, 0],
   [0, 0, 0, 0, 0, 0, 0, 0, 0, 0, 0, 0, 0, 0, 0, 0],
   [0, 0, 0, 0, 0, 0, 0, 0, 0, 0, 0, 0, 0, 0, 0, 0],
   [0, 0, 0, 0, 0, 0, 0, 0, 0, 0, 0, 0, 0, 0, 0, 0],
   [0, 0, 0, 0, 0, 0, 0, 0, 0, 0, 0, 0, 0, 0, 0, 0],
   [0, 0, 0, 0, 0, 0, 0, 0, 0, 0, 0, 0, 0, 0, 0, 0],
   [0, 0, 0, 0, 0, 0, 0, 0, 0, 0, 0, 0, 0, 0, 0, 0],
   [0, 0, 0, 0, 0, 0, 0, 0, 0, 0, 0, 0, 0, 0, 0, 0],
   [0, 8, 8, 8, 8, 8, 0, 0, 0, 0, 0, 0, 0, 0, 0, 0]],
  -- syllabicity
  [[0, 0, 0, 0, 0, 0, 0, 0, 0, 0, 0, 0, 0, 0, 0, 0],
   [0, 0, 4, 0, 0, 0, 0, 0, 0, 0, 0, 0, 0, 0, 0, 4],
   [0, 4, 0, 0, 0, 0, 0, 0, 0, 0, 0, 0, 0, 0, 0, 4],
   [0, 0, 0, 0, 0, 0, 0, 0, 0, 0, 0, 0, 0, 0, 0, 0],
   [0, 0, 0, 0, 0, 0, 0, 0, 0, 0, 0, 0, 0, 0, 0, 0],
   [0, 0, 0, 0, 0, 0, 0, 0, 0, 0, 0, 0, 0, 0, 0, 0],
   [0, 0, 0, 0, 0, 0, 0, 0, 0, 0, 0, 0, 0, 0, 0, 0],
   [0, 0, 0, 0, 0, 0, 0, 0, 0, 0, 0, 0, 0, 0, 0, 0],
   [0, 0, 0, 0, 0, 0, 0, 0, 0, 0, 0, 0, 0, 0, 0, 0],
   [0, 0, 0, 0, 0, 0, 0, 0, 0, 0, 0, 0, 0, 0, 0, 0],
   [0, 0, 0, 0, 0, 0, 0, 0, 0, 0, 0, 0, 0, 0, 0, 0],
   [0, 0, 0, 0, 0, 0, 0, 0, 0, 0, 0, 0, 0, 0, 0, 0],
   [0, 0, 0, 0, 0, 0, 0, 0, 0, 0, 0, 0, 0, 0, 0, 0],
   [0, 0, 0, 0, 0, 0, 0, 0, 0, 0, 0, 0, 0, 0, 0, 0],
   [0, 0, 0, 0, 0, 0, 0, 0, 0, 0, 0, 0, 0, 0, 0, 0],
   [0, 4, 4, 0, 0, 0, 0, 0, 0, 0, 0, 0, 0, 0, 0, 0]]]

end Nisaba.PhonInv
