import Verif.Data.Features
import Verif.Model.NtFst
/-! Generated by tools/gen_phoninv.py: descriptive features and universal phonemes. -/
namespace Nisaba.PhonInv

/-- A feature: the place of its aspect in phonology/features/descriptive.py:28-174 and its
number in `Verif.Data.Features` (1000 for `any`, 1001 for `n_a`). -/
abbrev Fe := Nat × Nat

/-- phonology/features/descriptive.py:28-174: the aspects in order. -/
def roots : List Feature.Val :=
  [Feature.Data.ph_class, Feature.Data.airstream, Feature.Data.manner, Feature.Data.place, Feature.Data.articulator, Feature.Data.height, Feature.Data.backness, Feature.Data.breathiness, Feature.Data.voicing, Feature.Data.labialization, Feature.Data.lateralization, Feature.Data.nasalization, Feature.Data.palatalization, Feature.Data.rhoticization, Feature.Data.duration, Feature.Data.syllabicity]

/-- phonology/features/descriptive.py:33 -/
def Phf.ph_class.vowel : Fe := (0, 1)
/-- phonology/features/descriptive.py:34 -/
def Phf.ph_class.consonant : Fe := (0, 2)
/-- phonology/features/descriptive.py:31 -/
def Phf.ph_class.«any» : Fe := (0, 1000)
/-- phonology/features/descriptive.py:31 -/
def Phf.ph_class.n_a : Fe := (0, 1001)
/-- phonology/features/descriptive.py:41 -/
def Phf.airstream.pulmonic : Fe := (1, 1)
/-- phonology/features/descriptive.py:42 -/
def Phf.airstream.ejective : Fe := (1, 3)
/-- phonology/features/descriptive.py:42 -/
def Phf.airstream.implosive : Fe := (1, 4)
/-- phonology/features/descriptive.py:43 -/
def Phf.airstream.click : Fe := (1, 5)
/-- phonology/features/descriptive.py:39 -/
def Phf.airstream.«any» : Fe := (1, 1000)
/-- phonology/features/descriptive.py:39 -/
def Phf.airstream.n_a : Fe := (1, 1001)
/-- phonology/features/descriptive.py:50 -/
def Phf.manner.stop : Fe := (2, 1)
/-- phonology/features/descriptive.py:53 -/
def Phf.manner.fricative : Fe := (2, 3)
/-- phonology/features/descriptive.py:56 -/
def Phf.manner.sibilant : Fe := (2, 5)
/-- phonology/features/descriptive.py:57 -/
def Phf.manner.strident : Fe := (2, 6)
/-- phonology/features/descriptive.py:58 -/
def Phf.manner.non_sibilant : Fe := (2, 7)
/-- phonology/features/descriptive.py:65 -/
def Phf.manner.approximant : Fe := (2, 9)
/-- phonology/features/descriptive.py:68 -/
def Phf.manner.tap : Fe := (2, 12)
/-- phonology/features/descriptive.py:68 -/
def Phf.manner.flap : Fe := (2, 13)
/-- phonology/features/descriptive.py:69 -/
def Phf.manner.trill : Fe := (2, 14)
/-- phonology/features/descriptive.py:48 -/
def Phf.manner.«any» : Fe := (2, 1000)
/-- phonology/features/descriptive.py:48 -/
def Phf.manner.n_a : Fe := (2, 1001)
/-- phonology/features/descriptive.py:78 -/
def Phf.place.labial : Fe := (3, 1)
/-- phonology/features/descriptive.py:79 -/
def Phf.place.dental : Fe := (3, 2)
/-- phonology/features/descriptive.py:80 -/
def Phf.place.alveolar : Fe := (3, 3)
/-- phonology/features/descriptive.py:81 -/
def Phf.place.postalveolar : Fe := (3, 4)
/-- phonology/features/descriptive.py:82 -/
def Phf.place.palatal : Fe := (3, 5)
/-- phonology/features/descriptive.py:83 -/
def Phf.place.velar : Fe := (3, 6)
/-- phonology/features/descriptive.py:84 -/
def Phf.place.uvular : Fe := (3, 7)
/-- phonology/features/descriptive.py:85 -/
def Phf.place.epiglottal : Fe := (3, 8)
/-- phonology/features/descriptive.py:86 -/
def Phf.place.glottal : Fe := (3, 9)
/-- phonology/features/descriptive.py:76 -/
def Phf.place.«any» : Fe := (3, 1000)
/-- phonology/features/descriptive.py:76 -/
def Phf.place.n_a : Fe := (3, 1001)
/-- phonology/features/descriptive.py:93 -/
def Phf.articulator.labial : Fe := (4, 1)
/-- phonology/features/descriptive.py:94 -/
def Phf.articulator.apical : Fe := (4, 2)
/-- phonology/features/descriptive.py:95 -/
def Phf.articulator.laminal : Fe := (4, 3)
/-- phonology/features/descriptive.py:96 -/
def Phf.articulator.dorsal : Fe := (4, 4)
/-- phonology/features/descriptive.py:97 -/
def Phf.articulator.laryngeal : Fe := (4, 5)
/-- phonology/features/descriptive.py:91 -/
def Phf.articulator.«any» : Fe := (4, 1000)
/-- phonology/features/descriptive.py:91 -/
def Phf.articulator.n_a : Fe := (4, 1001)
/-- phonology/features/descriptive.py:105 -/
def Phf.height.close : Fe := (5, 1)
/-- phonology/features/descriptive.py:106 -/
def Phf.height.near_close : Fe := (5, 2)
/-- phonology/features/descriptive.py:107 -/
def Phf.height.close_mid : Fe := (5, 3)
/-- phonology/features/descriptive.py:108 -/
def Phf.height.«mid» : Fe := (5, 4)
/-- phonology/features/descriptive.py:109 -/
def Phf.height.open_mid : Fe := (5, 5)
/-- phonology/features/descriptive.py:110 -/
def Phf.height.near_open : Fe := (5, 6)
/-- phonology/features/descriptive.py:111 -/
def Phf.height.«open» : Fe := (5, 7)
/-- phonology/features/descriptive.py:103 -/
def Phf.height.«any» : Fe := (5, 1000)
/-- phonology/features/descriptive.py:103 -/
def Phf.height.n_a : Fe := (5, 1001)
/-- phonology/features/descriptive.py:118 -/
def Phf.backness.front : Fe := (6, 1)
/-- phonology/features/descriptive.py:119 -/
def Phf.backness.near_front : Fe := (6, 2)
/-- phonology/features/descriptive.py:120 -/
def Phf.backness.central : Fe := (6, 3)
/-- phonology/features/descriptive.py:121 -/
def Phf.backness.near_back : Fe := (6, 4)
/-- phonology/features/descriptive.py:122 -/
def Phf.backness.back : Fe := (6, 5)
/-- phonology/features/descriptive.py:116 -/
def Phf.backness.«any» : Fe := (6, 1000)
/-- phonology/features/descriptive.py:116 -/
def Phf.backness.n_a : Fe := (6, 1001)
/-- phonology/features/descriptive.py:132 -/
def Phf.breathiness.aspirated : Fe := (7, 2)
/-- phonology/features/descriptive.py:133 -/
def Phf.breathiness.breathy : Fe := (7, 3)
/-- phonology/features/descriptive.py:134 -/
def Phf.breathiness.murmured : Fe := (7, 4)
/-- phonology/features/descriptive.py:137 -/
def Phf.breathiness.unaspirated : Fe := (7, 6)
/-- phonology/features/descriptive.py:137 -/
def Phf.breathiness.«none» : Fe := (7, 7)
/-- phonology/features/descriptive.py:128 -/
def Phf.breathiness.«any» : Fe := (7, 1000)
/-- phonology/features/descriptive.py:128 -/
def Phf.breathiness.n_a : Fe := (7, 1001)
/-- phonology/features/descriptive.py:140 -/
def Phf.voicing.voiced : Fe := (8, 1)
/-- phonology/features/descriptive.py:140 -/
def Phf.voicing.voiceless : Fe := (8, 2)
/-- phonology/features/descriptive.py:140 -/
def Phf.voicing.«any» : Fe := (8, 1000)
/-- phonology/features/descriptive.py:140 -/
def Phf.voicing.n_a : Fe := (8, 1001)
/-- phonology/features/descriptive.py:146 -/
def Phf.labialization.labialized : Fe := (9, 2)
/-- phonology/features/descriptive.py:146 -/
def Phf.labialization.rounded : Fe := (9, 3)
/-- phonology/features/descriptive.py:149 -/
def Phf.labialization.«none» : Fe := (9, 5)
/-- phonology/features/descriptive.py:149 -/
def Phf.labialization.unrounded : Fe := (9, 6)
/-- phonology/features/descriptive.py:143 -/
def Phf.labialization.«any» : Fe := (9, 1000)
/-- phonology/features/descriptive.py:143 -/
def Phf.labialization.n_a : Fe := (9, 1001)
/-- phonology/features/descriptive.py:153 -/
def Phf.lateralization.lateral : Fe := (10, 1)
/-- phonology/features/descriptive.py:153 -/
def Phf.lateralization.«none» : Fe := (10, 2)
/-- phonology/features/descriptive.py:153 -/
def Phf.lateralization.«any» : Fe := (10, 1000)
/-- phonology/features/descriptive.py:153 -/
def Phf.lateralization.n_a : Fe := (10, 1001)
/-- phonology/features/descriptive.py:154 -/
def Phf.nasalization.nasalized : Fe := (11, 1)
/-- phonology/features/descriptive.py:154 -/
def Phf.nasalization.«none» : Fe := (11, 2)
/-- phonology/features/descriptive.py:154 -/
def Phf.nasalization.«any» : Fe := (11, 1000)
/-- phonology/features/descriptive.py:154 -/
def Phf.nasalization.n_a : Fe := (11, 1001)
/-- phonology/features/descriptive.py:157 -/
def Phf.palatalization.light : Fe := (12, 1)
/-- phonology/features/descriptive.py:157 -/
def Phf.palatalization.heavy : Fe := (12, 2)
/-- phonology/features/descriptive.py:157 -/
def Phf.palatalization.«none» : Fe := (12, 3)
/-- phonology/features/descriptive.py:156 -/
def Phf.palatalization.«any» : Fe := (12, 1000)
/-- phonology/features/descriptive.py:156 -/
def Phf.palatalization.n_a : Fe := (12, 1001)
/-- phonology/features/descriptive.py:160 -/
def Phf.rhoticization.rhotic : Fe := (13, 1)
/-- phonology/features/descriptive.py:160 -/
def Phf.rhoticization.«none» : Fe := (13, 2)
/-- phonology/features/descriptive.py:160 -/
def Phf.rhoticization.«any» : Fe := (13, 1000)
/-- phonology/features/descriptive.py:160 -/
def Phf.rhoticization.n_a : Fe := (13, 1001)
/-- phonology/features/descriptive.py:165 -/
def Phf.duration.extra_short : Fe := (14, 1)
/-- phonology/features/descriptive.py:166 -/
def Phf.duration.short : Fe := (14, 2)
/-- phonology/features/descriptive.py:167 -/
def Phf.duration.half_long : Fe := (14, 3)
/-- phonology/features/descriptive.py:168 -/
def Phf.duration.long : Fe := (14, 4)
/-- phonology/features/descriptive.py:169 -/
def Phf.duration.extra_long : Fe := (14, 5)
/-- phonology/features/descriptive.py:163 -/
def Phf.duration.«any» : Fe := (14, 1000)
/-- phonology/features/descriptive.py:163 -/
def Phf.duration.n_a : Fe := (14, 1001)
/-- phonology/features/descriptive.py:173 -/
def Phf.syllabicity.syllabic : Fe := (15, 1)
/-- phonology/features/descriptive.py:173 -/
def Phf.syllabicity.«none» : Fe := (15, 2)
/-- phonology/features/descriptive.py:173 -/
def Phf.syllabicity.«any» : Fe := (15, 1000)
/-- phonology/features/descriptive.py:173 -/
def Phf.syllabicity.n_a : Fe := (15, 1001)

/-- phonology/features/descriptive.py:207 -/
def Phf.nasal : List Fe := [Phf.manner.stop, Phf.nasalization.nasalized, Phf.voicing.voiced]
/-- phonology/features/descriptive.py:215 -/
def Phf.approximant : List Fe := [Phf.manner.approximant, Phf.voicing.voiced]
/-- phonology/features/descriptive.py:216 -/
def Phf.lateral_fricative : List Fe := [Phf.manner.non_sibilant, Phf.lateralization.lateral]
/-- phonology/features/descriptive.py:220 -/
def Phf.lateral_approximant : List Fe := [Phf.manner.approximant, Phf.voicing.voiced, Phf.lateralization.lateral]
/-- phonology/features/descriptive.py:230 -/
def Phf.bilabial : List Fe := [Phf.articulator.labial, Phf.place.labial, Phf.labialization.labialized]
/-- phonology/features/descriptive.py:238 -/
def Phf.labiodental : List Fe := [Phf.articulator.labial, Phf.place.dental, Phf.labialization.labialized]
/-- phonology/features/descriptive.py:246 -/
def Phf.dental : List Fe := [Phf.articulator.apical, Phf.place.dental]
/-- phonology/features/descriptive.py:247 -/
def Phf.alveolar : List Fe := [Phf.articulator.apical, Phf.articulator.laminal, Phf.place.alveolar]
/-- phonology/features/descriptive.py:248 -/
def Phf.para_alveolar : List Fe := [Phf.articulator.apical, Phf.articulator.laminal, Phf.place.dental, Phf.place.alveolar, Phf.place.postalveolar]
/-- phonology/features/descriptive.py:252 -/
def Phf.postalveolar : List Fe := [Phf.articulator.laminal, Phf.place.postalveolar, Phf.palatalization.light]
/-- phonology/features/descriptive.py:260 -/
def Phf.retroflex : List Fe := [Phf.articulator.apical, Phf.place.postalveolar, Phf.place.palatal, Phf.palatalization.«none»]
/-- phonology/features/descriptive.py:269 -/
def Phf.palatal : List Fe := [Phf.articulator.apical, Phf.articulator.laminal, Phf.articulator.dorsal, Phf.place.palatal, Phf.palatalization.heavy]
/-- phonology/features/descriptive.py:278 -/
def Phf.velar : List Fe := [Phf.articulator.dorsal, Phf.place.velar]
/-- phonology/features/descriptive.py:279 -/
def Phf.uvular : List Fe := [Phf.articulator.dorsal, Phf.place.uvular]
/-- phonology/features/descriptive.py:280 -/
def Phf.epiglottal : List Fe := [Phf.articulator.laryngeal, Phf.place.epiglottal]
/-- phonology/features/descriptive.py:284 -/
def Phf.glottal : List Fe := [Phf.articulator.laryngeal, Phf.place.glottal]
/-- phonology/features/descriptive.py:287-301 -/
def Phf.vowel : List Fe := [Phf.ph_class.vowel, Phf.airstream.pulmonic, Phf.manner.n_a, Phf.place.n_a, Phf.articulator.n_a, Phf.breathiness.«none», Phf.voicing.voiced, Phf.lateralization.n_a, Phf.nasalization.«none», Phf.palatalization.«none», Phf.rhoticization.«none», Phf.syllabicity.syllabic]
/-- phonology/features/descriptive.py:302-314 -/
def Phf.consonant : List Fe := [Phf.ph_class.consonant, Phf.airstream.pulmonic, Phf.height.n_a, Phf.backness.n_a, Phf.labialization.«none», Phf.lateralization.«none», Phf.nasalization.«none», Phf.palatalization.«none», Phf.rhoticization.«none», Phf.syllabicity.«none»]

/-- phonology/inventories/x_uni.py:28-58: IPA, alias, name. -/
def vowels : List (Str × Str × Str) := [
  (a!"a", a!"a", a!"open front unrounded vowel"),
  (a!"ä", a!"au", a!"open center unrounded vowel"),
  (a!"æ", a!"ae", a!"near_open front unrounded vowel"),
  (a!"ɐ", a!"av", a!"near_open center unrounded vowel"),
  (a!"ɑ", a!"aw", a!"open back unrounded vowel"),
  (a!"ɒ", a!"ow", a!"open back rounded vowel"),
  (a!"e", a!"e", a!"close_mid front unrounded vowel"),
  (a!"ə", a!"ec", a!"mid center unrounded vowel"),
  (a!"ɛ", a!"eh", a!"open_mid front unrounded vowel"),
  (a!"ɘ", a!"el", a!"close_mid center unrounded vowel"),
  (a!"ɜ", a!"ex", a!"open_mid center unrounded vowel"),
  (a!"ɞ", a!"ox", a!"open_mid center rounded vowel"),
  (a!"ɤ", a!"eo", a!"close_mid back unrounded vowel"),
  (a!"i", a!"i", a!"close front unrounded vowel"),
  (a!"ɪ", a!"iy", a!"near_close near_front unrounded vowel"),
  (a!"ɨ", a!"ic", a!"close center unrounded vowel"),
  (a!"o", a!"o", a!"close_mid back rounded vowel"),
  (a!"ø", a!"oi", a!"close_mid front rounded vowel"),
  (a!"œ", a!"oe", a!"open_mid front rounded vowel"),
  (a!"ɶ", a!"oa", a!"open front rounded vowel"),
  (a!"ɔ", a!"oh", a!"open_mid back rounded vowel"),
  (a!"ɵ", a!"ol", a!"close_mid center rounded vowel"),
  (a!"u", a!"u", a!"close back rounded vowel"),
  (a!"ʉ", a!"uc", a!"close center rounded vowel"),
  (a!"ɯ", a!"iu", a!"close back unrounded vowel"),
  (a!"ʊ", a!"uv", a!"near_close near_back rounded vowel"),
  (a!"ʌ", a!"ah", a!"open_mid back unrounded vowel"),
  (a!"y", a!"ui", a!"close front rounded vowel"),
  (a!"ʏ", a!"uy", a!"near_close near_front rounded vowel")]

/-- phonology/inventories/x_uni.py:158-230: IPA, alias, name. -/
def consonants : List (Str × Str × Str) := [
  (a!"b", a!"b", a!"voiced bilabial stop"),
  (a!"ʙ", a!"bb", a!"bilabial trill"),
  (a!"c", a!"ky", a!"voiceless palatal stop"),
  (a!"ç", a!"hy", a!"voiceless palatal non-sibilant fricative"),
  (a!"ɕ", a!"sy", a!"voiceless palatal sibilant fricative"),
  (a!"d", a!"d", a!"voiced alveolar stop"),
  (a!"ð", a!"dh", a!"voiced dental non-sibilant fricative"),
  (a!"ɖ", a!"dd", a!"voiced retro­flex stop"),
  (a!"f", a!"f", a!"voiceless labio­dental non-sibilant fricative"),
  (a!"ɡ", a!"g", a!"voiced velar stop"),
  (a!"ɢ", a!"j", a!"voiced uvular stop"),
  (a!"ɣ", a!"gh", a!"voiced velar non-sibilant fricative"),
  (a!"h", a!"h", a!"voiceless glottal non-sibilant fricative"),
  (a!"ħ", a!"ch", a!"voiceless pharyngeal non-sibilant fricative"),
  (a!"ʜ", a!"hho", a!"voiceless epiglottal trill"),
  (a!"ɦ", a!"ha", a!"voiced glottal non-sibilant fricative"),
  (a!"j", a!"y", a!"palatal approximant"),
  (a!"ʝ", a!"yy", a!"voiced palatal non-sibilant fricative"),
  (a!"ɟ", a!"gy", a!"voiced palatal stop"),
  (a!"k", a!"k", a!"voiceless velar stop"),
  (a!"l", a!"l", a!"alveolar lateral approximant"),
  (a!"ʟ", a!"lg", a!"velar lateral approximant"),
  (a!"ɬ", a!"sl", a!"voiceless alveolar lateral fricative"),
  (a!"ɭ", a!"ll", a!"retro­flex lateral approximant"),
  (a!"ꞎ", a!"ssl", a!"voiceless retro­flex lateral fricative"),
  (a!"ɮ", a!"zl", a!"voiced alveolar lateral fricative"),
  (a!"ʎ", a!"ly", a!"palatal lateral approximant"),
  (a!"m", a!"m", a!"voiced bilabial nasal"),
  (a!"ɱ", a!"mi", a!"voiced labio­dental nasal"),
  (a!"n", a!"n", a!"voiced alveolar nasal"),
  (a!"ɴ", a!"nj", a!"voiced uvular nasal"),
  (a!"ɲ", a!"ny", a!"voiced palatal nasal"),
  (a!"ɳ", a!"nn", a!"voiced retro­flex nasal"),
  (a!"ŋ", a!"ng", a!"voiced velar nasal"),
  (a!"p", a!"p", a!"voiceless bilabial stop"),
  (a!"ɸ", a!"ph", a!"voiceless bilabial non-sibilant fricative"),
  (a!"q", a!"q", a!"voiceless uvular stop"),
  (a!"r", a!"r", a!"alveolar trill"),
  (a!"ʀ", a!"rj", a!"uvular trill"),
  (a!"ɹ", a!"ru", a!"alveolar approximant"),
  (a!"ɺ", a!"rl", a!"alveolar lateral flap"),
  (a!"ɻ", a!"rru", a!"retro­flex approximant"),
  (a!"ɽ", a!"rd", a!"retro­flex flap"),
  (a!"ɾ", a!"rt", a!"alveolar flap"),
  (a!"ʁ", a!"jh", a!"voiced uvular non-sibilant fricative"),
  (a!"s", a!"s", a!"voiceless alveolar sibilant fricative"),
  (a!"ʂ", a!"ss", a!"voiceless retro­flex sibilant fricative"),
  (a!"ʃ", a!"sh", a!"voiceless post­alveolar sibilant fricative"),
  (a!"t", a!"t", a!"voiceless alveolar stop"),
  (a!"ʈ", a!"tt", a!"voiceless retro­flex stop"),
  (a!"ɰ", a!"gu", a!"velar approximant"),
  (a!"v", a!"v", a!"voiced labio­dental non-sibilant fricative"),
  (a!"ʋ", a!"vu", a!"labio­dental approximant"),
  (a!"ⱱ", a!"vt", a!"labio­dental flap"),
  (a!"x", a!"kh", a!"voiceless velar non-sibilant fricative"),
  (a!"z", a!"z", a!"voiced alveolar sibilant fricative"),
  (a!"ʐ", a!"zz", a!"voiced retro­flex sibilant fricative"),
  (a!"ʑ", a!"zy", a!"voiced palatal sibilant fricative"),
  (a!"ʒ", a!"zh", a!"voiced post­alveolar sibilant fricative"),
  (a!"ʔ", a!"x", a!"glottal stop"),
  (a!"ʕ", a!"cha", a!"voiced pharyngeal non-sibilant fricative"),
  (a!"ʡ", a!"c", a!"epiglottal stop"),
  (a!"ʢ", a!"hh", a!"epiglottal trill"),
  (a!"β", a!"bh", a!"voiced bilabial non-sibilant fricative"),
  (a!"θ", a!"th", a!"voiceless dental non-sibilant fricative"),
  (a!"χ", a!"qh", a!"voiceless uvular non-sibilant fricative"),
  (a!"ɥ", a!"yw", a!"labial-palatal approximant"),
  (a!"ʍ", a!"hw", a!"voiceless labial-velar fricative"),
  (a!"w", a!"w", a!"labial-velar approximant"),
  (a!"ɧ", a!"sj", a!"voiceless palatal-velar fricative"),
  (a!"ɫ", a!"lw", a!"labial-velar lateral approximant")]

/-- phonology/inventories/x_uni.py:67-439: the calls of `update_descriptives` in order, each with
the aliases of the phonemes of its loop and the features given. -/
def updates : List (List Str × List Fe) := [
  -- 69-70
  ([a!"a", a!"au", a!"aw", a!"ow", a!"oa"], [Phf.height.«open»]),
  -- 71-72
  ([a!"ae", a!"av"], [Phf.height.near_open]),
  -- 73-74
  ([a!"eh", a!"ex", a!"ox", a!"oe", a!"oh", a!"ah"], [Phf.height.open_mid]),
  -- 75-76
  ([a!"ec"], [Phf.height.«mid»]),
  -- 77-78
  ([a!"e", a!"el", a!"eo", a!"o", a!"ol"], [Phf.height.close_mid]),
  -- 79-80
  ([a!"iy", a!"uv", a!"uy"], [Phf.height.near_close]),
  -- 81-82
  ([a!"i", a!"ic", a!"u", a!"uc", a!"iu", a!"ui"], [Phf.height.close]),
  -- 86-97
  ([a!"a", a!"ae", a!"e", a!"eh", a!"i", a!"oi", a!"oe", a!"oa", a!"ui"], [Phf.backness.front]),
  -- 98-99
  ([a!"iy", a!"av", a!"iy", a!"uy"], [Phf.backness.near_front]),
  -- 100-111
  ([a!"au", a!"av", a!"ec", a!"el", a!"ex", a!"ox", a!"ic", a!"ol", a!"uc"], [Phf.backness.central]),
  -- 112-113
  ([a!"uv"], [Phf.backness.near_back]),
  -- 114-115
  ([a!"aw", a!"ow", a!"eo", a!"o", a!"oh", a!"u", a!"iu", a!"ah"], [Phf.backness.back]),
  -- 119-134
  ([a!"ow", a!"ox", a!"o", a!"oi", a!"oe", a!"oa", a!"oh", a!"ol", a!"u", a!"uc", a!"uv", a!"ui", a!"uy"], [Phf.labialization.rounded]),
  -- 136-154
  ([a!"a", a!"au", a!"ae", a!"av", a!"aw", a!"e", a!"ec", a!"eh", a!"el", a!"ex", a!"eo", a!"i", a!"iy", a!"ic", a!"iu", a!"ah"], [Phf.labialization.unrounded]),
  -- 241-242
  ([a!"m", a!"mi", a!"n", a!"ng", a!"nj", a!"nn", a!"ny"], Phf.nasal),
  -- 243-259
  ([a!"b", a!"c", a!"d", a!"dd", a!"g", a!"gy", a!"j", a!"k", a!"ky", a!"p", a!"q", a!"t", a!"tt", a!"x"], [Phf.manner.stop]),
  -- 260-270
  ([a!"s", a!"sh", a!"ss", a!"sy", a!"z", a!"zh", a!"zy", a!"zz"], [Phf.manner.sibilant]),
  -- 271-291
  ([a!"bh", a!"ch", a!"cha", a!"dh", a!"f", a!"gh", a!"h", a!"ha", a!"hw", a!"hy", a!"jh", a!"kh", a!"ph", a!"qh", a!"sj", a!"th", a!"v", a!"yy"], [Phf.manner.non_sibilant]),
  -- 292-293
  ([a!"gu", a!"rru", a!"ru", a!"vu", a!"w", a!"y", a!"yw"], [Phf.manner.approximant]),
  -- 294-295
  ([a!"rd", a!"rt", a!"vt"], [Phf.manner.tap]),
  -- 296-297
  ([a!"bb", a!"hh", a!"hho", a!"r", a!"rj"], [Phf.manner.trill]),
  -- 298-299
  ([a!"sl", a!"ssl", a!"zl"], Phf.lateral_fricative),
  -- 300-301
  ([a!"l", a!"lg", a!"ll", a!"lw", a!"ly"], Phf.lateral_approximant),
  -- 302-305
  ([a!"rl"], Phf.lateral_approximant),
  -- 302-305
  ([a!"rl"], [Phf.manner.tap]),
  -- 309-310
  ([a!"b", a!"bb", a!"bh", a!"m", a!"p", a!"ph"], Phf.bilabial),
  -- 311-312
  ([a!"f", a!"mi", a!"v", a!"vt", a!"vu"], Phf.labiodental),
  -- 313-317
  ([a!"dh", a!"th"], Phf.dental),
  -- 318-319
  ([a!"s", a!"z"], Phf.dental ++ Phf.alveolar),
  -- 320-332
  ([a!"d", a!"l", a!"n", a!"r", a!"rl", a!"rt", a!"ru", a!"sl", a!"t", a!"zl"], Phf.para_alveolar),
  -- 333-334
  ([a!"sh", a!"zh"], Phf.postalveolar),
  -- 335-346
  ([a!"dd", a!"ll", a!"nn", a!"rd", a!"rru", a!"ss", a!"ssl", a!"tt", a!"zz"], Phf.retroflex),
  -- 347-359
  ([a!"gy", a!"hy", a!"ky", a!"ly", a!"ny", a!"sy", a!"y", a!"yw", a!"yy", a!"zy"], Phf.palatal),
  -- 360-373
  ([a!"g", a!"gh", a!"gu", a!"hw", a!"k", a!"kh", a!"lg", a!"lw", a!"ng", a!"sj", a!"w"], Phf.velar),
  -- 374-375
  ([a!"j", a!"jh", a!"nj", a!"q", a!"qh", a!"rj"], Phf.uvular),
  -- 376-377
  ([a!"c", a!"ch", a!"cha", a!"hh", a!"hho"], Phf.epiglottal),
  -- 378-379
  ([a!"h", a!"ha", a!"x"], Phf.glottal),
  -- 383-410
  ([a!"c", a!"ch", a!"f", a!"h", a!"hho", a!"hw", a!"hy", a!"k", a!"kh", a!"ky", a!"p", a!"ph", a!"q", a!"qh", a!"s", a!"sh", a!"sj", a!"sl", a!"ss", a!"ssl", a!"sy", a!"t", a!"th", a!"tt", a!"x"], [Phf.voicing.voiceless]),
  -- 411-432
  ([a!"b", a!"bh", a!"cha", a!"d", a!"dd", a!"dh", a!"g", a!"gh", a!"gy", a!"ha", a!"j", a!"jh", a!"v", a!"yy", a!"z", a!"zh", a!"zl", a!"zy", a!"zz"], [Phf.voicing.voiced]),
  -- 436-437
  ([a!"hw", a!"lw", a!"w", a!"yw"], [Phf.labialization.labialized]),
  -- 438-439
  ([a!"sj"], [Phf.palatalization.heavy])]

end Nisaba.PhonInv
