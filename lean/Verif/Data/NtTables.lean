import Verif.Model.NtFst
/-! Generated by tools/gen_nt.py from the sources named below. -/
namespace Nisaba.NT.Data

/-- Rows `[txn, ftr, ipa, base_tr, alias]` of the base phonemes: txn, ipa, aliases of the parts of
base_tr, alias (empty when not given).  The features are left out. -/
abbrev PhonRow := Str × Str × List Str × Str

/-- nisaba/scripts/natural_translit/phonology/phoneme_inventory.py:40-40. -/
def SILENCE : List PhonRow := [
  (a!"sil", a!"", [a!"DEL"], a!"")]

/-- nisaba/scripts/natural_translit/phonology/phoneme_inventory.py:42-55. -/
def STANDALONE_FEATURE : List PhonRow := [
  (a!"S", a!"̍", [a!"U"], a!"SYL"),
  (a!"Z", a!"̯", [a!"DEL"], a!"NSY"),
  (a!"N", a!"~", [a!"N"], a!"NSL"),
  (a!"L", a!"ˡ", [a!"L"], a!"LAT"),
  (a!"H", a!"ʰ", [a!"H"], a!"ASP"),
  (a!"W", a!"ʷ", [a!"W"], a!"LBL"),
  (a!"Y", a!"ʲ", [a!"Y"], a!"PLT"),
  (a!"G", a!"ˠ", [a!"G"], a!"VLR"),
  (a!"C", a!"ˤ", [a!"H"], a!"PHR"),
  (a!"X", a!"ˀ", [a!"H"], a!"GLT"),
  (a!"R", a!"˞", [a!"R"], a!"RHT"),
  (a!".", a!".", [a!"DEL"], a!"SYB")]

/-- nisaba/scripts/natural_translit/phonology/phoneme_inventory.py:57-60. -/
def UNASSIGNED_VOWEL : List PhonRow := [
  (a!"_", a!"", [a!"DEL"], a!"V_TNT"),
  (a!"V", a!"", [a!"DEL"], a!"V_PRN")]

/-- nisaba/scripts/natural_translit/phonology/phoneme_inventory.py:62-133. -/
def BASE_VOWEL : List PhonRow := [
  (a!"i", a!"i", [a!"I"], a!""),
  (a!"ui", a!"y", [a!"U"], a!""),
  (a!"im", a!"ï", [a!"I"], a!""),
  (a!"um", a!"ÿ", [a!"U"], a!""),
  (a!"ic", a!"ɨ", [a!"I"], a!""),
  (a!"uc", a!"ʉ", [a!"U"], a!""),
  (a!"in", a!"ɯ̈", [a!"U"], a!""),
  (a!"un", a!"ü", [a!"U"], a!""),
  (a!"iu", a!"ɯ", [a!"U"], a!""),
  (a!"u", a!"u", [a!"U"], a!""),
  (a!"ie", a!"i̞", [a!"I"], a!""),
  (a!"ue", a!"y̞", [a!"U"], a!""),
  (a!"iy", a!"ɪ", [a!"I"], a!""),
  (a!"uy", a!"ʏ", [a!"U"], a!""),
  (a!"ix", a!"ɪ̈", [a!"U"], a!""),
  (a!"ux", a!"ʊ̈", [a!"U"], a!""),
  (a!"iv", a!"ɯ̽", [a!"U"], a!""),
  (a!"uv", a!"ʊ", [a!"U"], a!""),
  (a!"io", a!"ɯ̞", [a!"U"], a!""),
  (a!"uo", a!"u̞", [a!"U"], a!""),
  (a!"e", a!"e", [a!"E"], a!""),
  (a!"oi", a!"ø", [a!"O"], a!""),
  (a!"ey", a!"ë", [a!"E"], a!""),
  (a!"oy", a!"ø̈", [a!"O"], a!""),
  (a!"el", a!"ɘ", [a!"U"], a!""),
  (a!"ol", a!"ɵ", [a!"O"], a!""),
  (a!"en", a!"ɤ̈", [a!"U"], a!""),
  (a!"on", a!"ö", [a!"O"], a!""),
  (a!"eo", a!"ɤ", [a!"U"], a!""),
  (a!"o", a!"o", [a!"O"], a!""),
  (a!"ee", a!"e̞", [a!"E"], a!""),
  (a!"oee", a!"ø̞", [a!"O"], a!""),
  (a!"eem", a!"e̽", [a!"E"], a!""),
  (a!"oem", a!"ø̽", [a!"O"], a!""),
  (a!"ec", a!"ə", [a!"U"], a!""),
  (a!"oc", a!"ɵ̞", [a!"O"], a!""),
  (a!"aan", a!"ɤ̽", [a!"U"], a!""),
  (a!"oon", a!"o̽", [a!"O"], a!""),
  (a!"aa", a!"ɤ̞", [a!"U"], a!""),
  (a!"oo", a!"o̞", [a!"O"], a!""),
  (a!"eh", a!"ɛ", [a!"E"], a!""),
  (a!"oe", a!"œ", [a!"O"], a!""),
  (a!"em", a!"ɛ̈", [a!"E"], a!""),
  (a!"om", a!"œ̈", [a!"O"], a!""),
  (a!"ex", a!"ɜ", [a!"E"], a!""),
  (a!"ox", a!"ɞ", [a!"O"], a!""),
  (a!"ahn", a!"ʌ̈", [a!"A"], a!""),
  (a!"ohn", a!"ɔ̈", [a!"O"], a!""),
  (a!"ah", a!"ʌ", [a!"A"], a!""),
  (a!"oh", a!"ɔ", [a!"O"], a!""),
  (a!"ae", a!"æ", [a!"A"], a!""),
  (a!"oae", a!"œ̞", [a!"O"], a!""),
  (a!"al", a!"a̽", [a!"A"], a!""),
  (a!"oal", a!"ɶ̽", [a!"O"], a!""),
  (a!"av", a!"ɐ", [a!"A"], a!""),
  (a!"ov", a!"ɞ̞", [a!"O"], a!""),
  (a!"arn", a!"ɑ̽", [a!"A"], a!""),
  (a!"orn", a!"ɒ̽", [a!"O"], a!""),
  (a!"ar", a!"ʌ̞", [a!"A"], a!""),
  (a!"or", a!"ɔ̞", [a!"O"], a!""),
  (a!"a", a!"a", [a!"A"], a!""),
  (a!"oa", a!"ɶ", [a!"O"], a!""),
  (a!"am", a!"æ̞", [a!"A"], a!""),
  (a!"oam", a!"ɶ̈", [a!"O"], a!""),
  (a!"au", a!"ä", [a!"A"], a!""),
  (a!"ou", a!"ɒ̈", [a!"O"], a!""),
  (a!"awn", a!"ɑ̈", [a!"O"], a!""),
  (a!"own", a!"ɒ̈", [a!"O"], a!""),
  (a!"aw", a!"ɑ", [a!"O"], a!""),
  (a!"ow", a!"ɒ", [a!"O"], a!"")]

/-- nisaba/scripts/natural_translit/phonology/phoneme_inventory.py:138-148. -/
def VOICED_NASAL : List PhonRow := [
  (a!"m", a!"m", [a!"M"], a!""),
  (a!"mi", a!"ɱ", [a!"M"], a!""),
  (a!"ni", a!"n̪", [a!"N"], a!""),
  (a!"n", a!"n", [a!"N"], a!""),
  (a!"nx", a!"n̠", [a!"N"], a!""),
  (a!"nn", a!"ɳ", [a!"N"], a!""),
  (a!"ny", a!"ɲ", [a!"S_NY"], a!""),
  (a!"ng", a!"ŋ", [a!"S_NG"], a!""),
  (a!"nj", a!"ɴ", [a!"S_NG"], a!"")]

/-- nisaba/scripts/natural_translit/phonology/phoneme_inventory.py:154-166. -/
def VOICELESS_STOP : List PhonRow := [
  (a!"p", a!"p", [a!"P"], a!""),
  (a!"pi", a!"p̪", [a!"P"], a!""),
  (a!"ti", a!"t̪", [a!"T"], a!""),
  (a!"t", a!"t", [a!"T"], a!""),
  (a!"tx", a!"t̠", [a!"T"], a!""),
  (a!"tt", a!"ʈ", [a!"T"], a!""),
  (a!"ky", a!"c", [a!"K", a!"Y"], a!""),
  (a!"k", a!"k", [a!"K"], a!""),
  (a!"q", a!"q", [a!"K"], a!""),
  (a!"c", a!"ʡ", [a!"K"], a!""),
  (a!"x", a!"ʔ", [a!"T"], a!"")]

/-- nisaba/scripts/natural_translit/phonology/phoneme_inventory.py:168-178. -/
def VOICED_STOP : List PhonRow := [
  (a!"b", a!"b", [a!"B"], a!""),
  (a!"bi", a!"b̪", [a!"B"], a!""),
  (a!"di", a!"d̪", [a!"D"], a!""),
  (a!"d", a!"d", [a!"D"], a!""),
  (a!"dx", a!"d̠", [a!"D"], a!""),
  (a!"dd", a!"ɖ", [a!"D"], a!""),
  (a!"gy", a!"ɟ", [a!"G", a!"Y"], a!""),
  (a!"g", a!"ɡ", [a!"G"], a!""),
  (a!"j", a!"ɢ", [a!"G"], a!"")]

/-- nisaba/scripts/natural_translit/phonology/phoneme_inventory.py:186-213. -/
def VOICELESS_FRICATIVE : List PhonRow := [
  (a!"si", a!"s̪", [a!"S"], a!""),
  (a!"s", a!"s", [a!"S"], a!""),
  (a!"sh", a!"ʃ", [a!"S_SH"], a!""),
  (a!"ss", a!"ʂ", [a!"S_SH"], a!""),
  (a!"sy", a!"ɕ", [a!"S_SH", a!"Y"], a!""),
  (a!"ph", a!"ɸ", [a!"F"], a!""),
  (a!"f", a!"f", [a!"F"], a!""),
  (a!"th", a!"θ", [a!"S_TH"], a!""),
  (a!"sf", a!"θ̠", [a!"S_SH"], a!""),
  (a!"sx", a!"ɹ̠̊˔", [a!"S_SH"], a!""),
  (a!"sr", a!"ɻ˔̊", [a!"S_SH"], a!""),
  (a!"hy", a!"ç", [a!"S_SH", a!"Y"], a!""),
  (a!"kh", a!"x", [a!"H"], a!""),
  (a!"qh", a!"χ", [a!"H"], a!""),
  (a!"ch", a!"ħ", [a!"H"], a!""),
  (a!"h", a!"h", [a!"H"], a!""),
  (a!"svl", a!"ɬ̪", [a!"S_SH"], a!""),
  (a!"sl", a!"ɬ", [a!"S_SH"], a!""),
  (a!"shl", a!"ɬ", [a!"S_SH"], a!""),
  (a!"ssl", a!"ꞎ", [a!"S_SH"], a!""),
  (a!"sly", a!"𝼆", [a!"S_SH"], a!""),
  (a!"khl", a!"𝼄", [a!"H"], a!""),
  (a!"qhl", a!"𝼄̠", [a!"H"], a!""),
  (a!"fy", a!"ɥ̊", [a!"F", a!"Y"], a!""),
  (a!"hw", a!"ʍ", [a!"W"], a!""),
  (a!"sj", a!"ɧ", [a!"W"], a!"")]

/-- nisaba/scripts/natural_translit/phonology/phoneme_inventory.py:215-239. -/
def VOICED_FRICATIVE : List PhonRow := [
  (a!"zi", a!"z̪", [a!"Z"], a!""),
  (a!"z", a!"z", [a!"Z"], a!""),
  (a!"zh", a!"ʒ", [a!"S_ZH"], a!""),
  (a!"zz", a!"ʐ", [a!"S_ZH"], a!""),
  (a!"zy", a!"ʑ", [a!"S_ZH", a!"Y"], a!""),
  (a!"bh", a!"β", [a!"V"], a!""),
  (a!"v", a!"v", [a!"V"], a!""),
  (a!"dh", a!"ð", [a!"S_DH"], a!""),
  (a!"zv", a!"ð̠", [a!"S_ZH"], a!""),
  (a!"zx", a!"ɹ̠˔", [a!"S_ZH"], a!""),
  (a!"zr", a!"ɻ˔", [a!"S_ZH"], a!""),
  (a!"yy", a!"ʝ", [a!"S_ZH", a!"Y"], a!""),
  (a!"gh", a!"ɣ", [a!"W"], a!""),
  (a!"jh", a!"ʁ", [a!"W"], a!""),
  (a!"cha", a!"ʕ", [a!"W"], a!""),
  (a!"ha", a!"ɦ", [a!"H"], a!""),
  (a!"zvl", a!"ɮ̪", [a!"S_ZH"], a!""),
  (a!"zl", a!"ɮ", [a!"S_ZH"], a!""),
  (a!"zhl", a!"ɮ", [a!"S_ZH"], a!""),
  (a!"zzl", a!"ɭ˔", [a!"S_ZH"], a!""),
  (a!"zly", a!"ʎ̝", [a!"S_ZH"], a!""),
  (a!"ghl", a!"ʟ̝", [a!"W"], a!""),
  (a!"jhl", a!"ʟ̠̝", [a!"W"], a!"")]

/-- nisaba/scripts/natural_translit/phonology/phoneme_inventory.py:244-259. -/
def CENTRAL_APPROXIMANT : List PhonRow := [
  (a!"bu", a!"β̞", [a!"W"], a!""),
  (a!"vu", a!"ʋ", [a!"V"], a!""),
  (a!"du", a!"ɹ̪", [a!"R"], a!""),
  (a!"ru", a!"ɹ", [a!"R"], a!""),
  (a!"rxu", a!"ɹ̠", [a!"R"], a!""),
  (a!"rru", a!"ɻ", [a!"R"], a!""),
  (a!"y", a!"j", [a!"Y"], a!""),
  (a!"gu", a!"ɰ", [a!"W"], a!""),
  (a!"ju", a!"ʁ̞", [a!"W"], a!""),
  (a!"hhu", a!"ʡ̞", [a!"H"], a!""),
  (a!"hu", a!"ʔ̞", [a!"H"], a!""),
  (a!"yw", a!"ɥ", [a!"W", a!"Y"], a!""),
  (a!"wy", a!"ɥ̄", [a!"W", a!"Y"], a!""),
  (a!"w", a!"w", [a!"W"], a!"")]

/-- nisaba/scripts/natural_translit/phonology/phoneme_inventory.py:261-270. -/
def LATERAL_APPROXIMANT : List PhonRow := [
  (a!"lv", a!"l̪", [a!"L"], a!""),
  (a!"l", a!"l", [a!"L"], a!""),
  (a!"lx", a!"l̠", [a!"L"], a!""),
  (a!"ll", a!"ɭ", [a!"L"], a!""),
  (a!"ly", a!"ʎ", [a!"L", a!"Y"], a!""),
  (a!"lg", a!"ʟ", [a!"W"], a!""),
  (a!"lj", a!"ʟ̠", [a!"W"], a!""),
  (a!"lw", a!"ɫ", [a!"W"], a!"")]

/-- nisaba/scripts/natural_translit/phonology/phoneme_inventory.py:274-286. -/
def VOICED_FLAP : List PhonRow := [
  (a!"bt", a!"ⱱ̟", [a!"B"], a!""),
  (a!"vt", a!"ⱱ", [a!"V"], a!""),
  (a!"vr", a!"ɾ̪", [a!"R"], a!""),
  (a!"rt", a!"ɾ", [a!"R"], a!""),
  (a!"xr", a!"ɾ̠", [a!"R"], a!""),
  (a!"rd", a!"ɽ", [a!"S_RD"], a!""),
  (a!"ht", a!"ʡ̆", [a!"H"], a!""),
  (a!"vl", a!"ɺ̪", [a!"R"], a!""),
  (a!"rl", a!"ɺ", [a!"R"], a!""),
  (a!"xl", a!"ɺ̠", [a!"R"], a!""),
  (a!"lr", a!"𝼈", [a!"R"], a!"")]

/-- nisaba/scripts/natural_translit/phonology/phoneme_inventory.py:291-300. -/
def VOICED_TRILL : List PhonRow := [
  (a!"bb", a!"ʙ", [a!"B"], a!""),
  (a!"vv", a!"ⱱ̞", [a!"V"], a!""),
  (a!"rv", a!"r̪", [a!"R"], a!""),
  (a!"r", a!"r", [a!"R"], a!""),
  (a!"rx", a!"r̠", [a!"R"], a!""),
  (a!"rr", a!"ɽr", [a!"R"], a!""),
  (a!"rj", a!"ʀ", [a!"R"], a!""),
  (a!"hh", a!"ʢ", [a!"H"], a!"")]

/-- nisaba/scripts/natural_translit/phonology/phoneme_inventory.py:305-312. -/
def CLICK_RELEASE : List PhonRow := [
  (a!"pk", a!"ʘ", [a!"P"], a!""),
  (a!"ck", a!"ǀ", [a!"C"], a!""),
  (a!"lk", a!"ǁ", [a!"X"], a!""),
  (a!"tk", a!"ǃ", [a!"Q"], a!""),
  (a!"yk", a!"ǂ", [a!"T"], a!""),
  (a!"rk", a!"𝼊", [a!"Q"], a!"")]

/-- Rows `[typ, glyph, ph]` of the single point characters: typ, glyph, aliases of the parts of ph. -/
abbrev CharRow := Str × Str × List Str

/-- nisaba/scripts/natural_translit/brahmic/grapheme_inventory.py:49-49. -/
def INHERENT_VOWEL : List CharRow := [
  (a!"a", a!"a", [a!"V_TNT"])]

/-- nisaba/scripts/natural_translit/brahmic/grapheme_inventory.py:51-65. -/
def SIMPLE_VOWEL_SIGN : List CharRow := [
  (a!"aa", a!"ā", [a!"A", a!"DURH"]),
  (a!"ac", a!"æ", [a!"AE"]),
  (a!"an", a!"ạ", [a!"A"]),
  (a!"e", a!"e", [a!"E"]),
  (a!"ee", a!"ē", [a!"E", a!"DURH"]),
  (a!"ec", a!"ê", [a!"AE"]),
  (a!"i", a!"i", [a!"I"]),
  (a!"ii", a!"ī", [a!"I", a!"DURH"]),
  (a!"o", a!"o", [a!"O"]),
  (a!"oo", a!"ō", [a!"O", a!"DURH"]),
  (a!"oc", a!"ô", [a!"OH"]),
  (a!"u", a!"u", [a!"U"]),
  (a!"uu", a!"ū", [a!"U", a!"DURH"])]

/-- nisaba/scripts/natural_translit/brahmic/grapheme_inventory.py:69-105. -/
def SIMPLE_CONSONANT : List CharRow := [
  (a!"b", a!"b", [a!"B"]),
  (a!"c", a!"c", [a!"T_SH"]),
  (a!"d", a!"d", [a!"DI"]),
  (a!"dd", a!"ḍ", [a!"DD"]),
  (a!"f", a!"f", [a!"F"]),
  (a!"g", a!"g", [a!"G"]),
  (a!"gg", a!"ġ", [a!"GH"]),
  (a!"h", a!"h", [a!"H"]),
  (a!"j", a!"j", [a!"D_ZH"]),
  (a!"k", a!"k", [a!"K"]),
  (a!"l", a!"l", [a!"L"]),
  (a!"ll", a!"ḷ", [a!"LL"]),
  (a!"lr", a!"ḻ", [a!"RRU"]),
  (a!"m", a!"m", [a!"M"]),
  (a!"n", a!"n", [a!"NI"]),
  (a!"ny", a!"ñ", [a!"NY"]),
  (a!"ng", a!"ṅ", [a!"NG"]),
  (a!"nn", a!"ṇ", [a!"NN"]),
  (a!"na", a!"ṉ", [a!"N"]),
  (a!"p", a!"p", [a!"P"]),
  (a!"q", a!"q", [a!"Q"]),
  (a!"r", a!"r", [a!"RT"]),
  (a!"rd", a!"ṛ", [a!"RD"]),
  (a!"rr", a!"ṟ", [a!"R"]),
  (a!"s", a!"s", [a!"S"]),
  (a!"sh", a!"ś", [a!"SH"]),
  (a!"ss", a!"ṣ", [a!"SS"]),
  (a!"t", a!"t", [a!"TI"]),
  (a!"tt", a!"ṭ", [a!"TT"]),
  (a!"ta", a!"ṯ", [a!"T"]),
  (a!"v", a!"v", [a!"VU"]),
  (a!"x", a!"x", [a!"KH"]),
  (a!"y", a!"y", [a!"Y"]),
  (a!"yy", a!"ẏ", [a!"Y", a!"ASP"]),
  (a!"z", a!"z", [a!"Z"])]

/-- nisaba/scripts/natural_translit/brahmic/grapheme_inventory.py:107-118. -/
def SIMPLE_CODA : List CharRow := [
  (a!"avg", a!"’", [a!"SIL"]),
  (a!"nkt", a!"ˑ", [a!"SIL"]),
  (a!"vis", a!"ḥ", [a!"H"]),
  (a!"vis_ta", a!"ḵ", [a!"G"]),
  (a!"ans", a!"ṁ", [a!"NSL"]),
  (a!"cnd_dia", a!"̐", [a!"SIL"]),
  (a!"upadh", a!"ḫ", [a!"H"]),
  (a!"jihva", a!"ẖ", [a!"H"]),
  (a!"add", a!"˖", [a!"SIL"]),
  (a!"tip", a!"ṃ", [a!"NSL"])]

/-- nisaba/scripts/natural_translit/brahmic/grapheme_inventory.py:120-120. -/
def OM_VOWEL : List CharRow := [
  (a!"ot", a!"õ", [a!"O", a!"DURH"])]

/-- nisaba/scripts/natural_translit/brahmic/grapheme_inventory.py:122-128. -/
def MODIFIER : List CharRow := [
  (a!"asp", a!"ʰ", [a!"ASP"]),
  (a!"vcl", a!"̥", [a!"SYL"]),
  (a!"long", a!"̄", [a!"SIL"]),
  (a!"chl", a!"ⸯ", [a!"SIL"]),
  (a!"eye", a!"̆", [a!"SIL"])]

/-- nisaba/scripts/natural_translit/brahmic/grapheme_inventory.py:130-130. -/
def VIRAMA : List CharRow := [
  (a!"vir", a!"", [a!"SIL"])]

/-- nisaba/scripts/natural_translit/brahmic/grapheme_inventory.py:132-137. -/
def SYMBOL : List CharRow := [
  (a!"ind", a!".", [a!"SIL"]),
  (a!"sgn", a!"-", [a!"SIL"]),
  (a!"zwj", a!"+", [a!"SIL"]),
  (a!"zwn", a!"|", [a!"SIL"])]

/-- Rows `[chars, typ, ph]` of composite characters: aliases of the components, typ, aliases of
the parts of ph. -/
abbrev CompRow := List Str × Str × List Str

/-- nisaba/scripts/natural_translit/brahmic/grapheme_inventory.py:148-151. -/
def LONG_VOCALIC : List CompRow := [
  ([a!"L", a!"VCL", a!"LONG"], a!"llv", [a!"L", a!"SYL", a!"DURH"]),
  ([a!"R", a!"VCL", a!"LONG"], a!"rrv", [a!"R", a!"SYL", a!"DURH"])]

/-- nisaba/scripts/natural_translit/brahmic/grapheme_inventory.py:153-156. -/
def SHORT_VOCALIC : List CompRow := [
  ([a!"L", a!"VCL"], a!"lv", [a!"L", a!"SYL"]),
  ([a!"R", a!"VCL"], a!"rv", [a!"R", a!"SYL"])]

/-- nisaba/scripts/natural_translit/brahmic/grapheme_inventory.py:160-163. -/
def DIPHTHONG_SIGN : List CompRow := [
  ([a!"A", a!"I"], a!"ai", [a!"A_I"]),
  ([a!"A", a!"U"], a!"au", [a!"A_U"])]

end Nisaba.NT.Data
