import Verif.Model.Feature
/-! Generated by tools/gen_features.py: the aspects defined in the repository. -/
namespace Nisaba.Feature.Data

/-- phonology/features/descriptive.py:30-36 -/
def ph_class : Val :=
  .list 0 "ph_class" .equidistant 1 [.feat ⟨1, "vowel"⟩, .feat ⟨2, "consonant"⟩]

/-- phonology/features/descriptive.py:38-45 -/
def airstream : Val :=
  .list 0 "airstream" .equidistant 1 [.feat ⟨1, "pulmonic"⟩, .list 2 "glottalic" .equidistant 0 [.feat ⟨3, "ejective"⟩, .feat ⟨4, "implosive"⟩], .feat ⟨5, "click"⟩]

/-- phonology/features/descriptive.py:47-74 -/
def manner : Val :=
  .list 0 "manner" .linear 1 [.feat ⟨1, "stop"⟩, .list 2 "fricatives" .equidistant 0 [.feat ⟨3, "fricative"⟩, .list 4 "amplitude" .linear (1/4) [.feat ⟨5, "sibilant"⟩, .feat ⟨6, "strident"⟩, .feat ⟨7, "non_sibilant"⟩]], .list 8 "approximant_like" .equidistant 1 [.feat ⟨9, "approximant"⟩, .list 10 "tap_flap_trill" .equidistant (1/2) [.list 11 "non_trill" .equidistant 0 [.feat ⟨12, "tap"⟩, .feat ⟨13, "flap"⟩], .feat ⟨14, "trill"⟩]]]

/-- phonology/features/descriptive.py:75-89 -/
def place : Val :=
  .list 0 "place" .linear (1/2) [.feat ⟨1, "labial"⟩, .feat ⟨2, "dental"⟩, .feat ⟨3, "alveolar"⟩, .feat ⟨4, "postalveolar"⟩, .feat ⟨5, "palatal"⟩, .feat ⟨6, "velar"⟩, .feat ⟨7, "uvular"⟩, .feat ⟨8, "epiglottal"⟩, .feat ⟨9, "glottal"⟩]

/-- phonology/features/descriptive.py:90-100 -/
def articulator : Val :=
  .list 0 "articulator" .equidistant (1/2) [.feat ⟨1, "labial"⟩, .feat ⟨2, "apical"⟩, .feat ⟨3, "laminal"⟩, .feat ⟨4, "dorsal"⟩, .feat ⟨5, "laryngeal"⟩]

/-- phonology/features/descriptive.py:102-114 -/
def height : Val :=
  .list 0 "height" .linear (1/2) [.feat ⟨1, "close"⟩, .feat ⟨2, "near_close"⟩, .feat ⟨3, "close_mid"⟩, .feat ⟨4, "mid"⟩, .feat ⟨5, "open_mid"⟩, .feat ⟨6, "near_open"⟩, .feat ⟨7, "open"⟩]

/-- phonology/features/descriptive.py:115-125 -/
def backness : Val :=
  .list 0 "backness" .linear (1/2) [.feat ⟨1, "front"⟩, .feat ⟨2, "near_front"⟩, .feat ⟨3, "central"⟩, .feat ⟨4, "near_back"⟩, .feat ⟨5, "back"⟩]

/-- phonology/features/descriptive.py:127-139 -/
def breathiness : Val :=
  .list 0 "breathiness" .equidistant 1 [.list 1 "is_breathy" .equidistant 0 [.feat ⟨2, "aspirated"⟩, .feat ⟨3, "breathy"⟩, .feat ⟨4, "murmured"⟩], .list 5 "not_breathy" .equidistant 0 [.feat ⟨6, "unaspirated"⟩, .feat ⟨7, "none"⟩]]

/-- phonology/features/descriptive.py:140-140 -/
def voicing : Val :=
  .list 0 "voicing" .equidistant 1 [.feat ⟨1, "voiced"⟩, .feat ⟨2, "voiceless"⟩]

/-- phonology/features/descriptive.py:142-152 -/
def labialization : Val :=
  .list 0 "labialization" .equidistant 1 [.list 1 "is_labialized" .equidistant 0 [.feat ⟨2, "labialized"⟩, .feat ⟨3, "rounded"⟩], .list 4 "not_labialized" .equidistant 0 [.feat ⟨5, "none"⟩, .feat ⟨6, "unrounded"⟩]]

/-- phonology/features/descriptive.py:153-153 -/
def lateralization : Val :=
  .list 0 "lateralization" .equidistant 1 [.feat ⟨1, "lateral"⟩, .feat ⟨2, "none"⟩]

/-- phonology/features/descriptive.py:154-154 -/
def nasalization : Val :=
  .list 0 "nasalization" .equidistant 1 [.feat ⟨1, "nasalized"⟩, .feat ⟨2, "none"⟩]

/-- phonology/features/descriptive.py:155-159 -/
def palatalization : Val :=
  .list 0 "palatalization" .linear (1/2) [.feat ⟨1, "light"⟩, .feat ⟨2, "heavy"⟩, .feat ⟨3, "none"⟩]

/-- phonology/features/descriptive.py:160-160 -/
def rhoticization : Val :=
  .list 0 "rhoticization" .equidistant 1 [.feat ⟨1, "rhotic"⟩, .feat ⟨2, "none"⟩]

/-- phonology/features/descriptive.py:162-172 -/
def duration : Val :=
  .list 0 "duration" .linear (1/2) [.feat ⟨1, "extra_short"⟩, .feat ⟨2, "short"⟩, .feat ⟨3, "half_long"⟩, .feat ⟨4, "long"⟩, .feat ⟨5, "extra_long"⟩]

/-- phonology/features/descriptive.py:173-173 -/
def syllabicity : Val :=
  .list 0 "syllabicity" .equidistant 1 [.feat ⟨1, "syllabic"⟩, .feat ⟨2, "none"⟩]

/-- phonology/features/language.py:74-125 -/
def language : Val :=
  .list 0 "language" .equidistant 1 [.list 1 "dravidian" .equidistant 1 [.feat ⟨2, "kn"⟩, .feat ⟨3, "te"⟩, .list 4 "tamil_kota" .equidistant 1 [.feat ⟨5, "ml"⟩, .feat ⟨6, "ta"⟩]], .list 7 "indo_european" .equidistant 1 [.list 8 "indo_aryan" .equidistant 1 [.feat ⟨9, "bn"⟩, .feat ⟨10, "gu"⟩, .feat ⟨11, "hi"⟩, .feat ⟨12, "mr"⟩, .feat ⟨13, "pa"⟩], .list 14 "germanic" .equidistant 1 [.feat ⟨15, "en"⟩]], .list 16 "mixed_family" .equidistant 1 [.feat ⟨17, "mul"⟩, .feat ⟨18, "und"⟩, .feat ⟨19, "x_uni"⟩, .feat ⟨20, "x_psa"⟩]]

/-- script/grapheme.py:65-75 -/
def script : Val :=
  .list 0 "script" .equidistant 1 [.feat ⟨1, "latn"⟩, .feat ⟨2, "deva"⟩, .feat ⟨3, "und"⟩, .feat ⟨4, "br"⟩]

/-- script/grapheme.py:76-76 -/
def gr_class : Val :=
  .list 0 "gr_class" .equidistant 1 [.feat ⟨1, "letter"⟩, .feat ⟨2, "number"⟩]

/-- script/grapheme.py:77-77 -/
def case : Val :=
  .list 0 "case" .equidistant 1 [.feat ⟨1, "upper"⟩, .feat ⟨2, "lower"⟩]

/-- utils/symbol.py:267-275 -/
def type : Val :=
  .list 0 "type" .equidistant 1 [.feat ⟨1, "abst"⟩, .feat ⟨2, "ctrl"⟩, .feat ⟨3, "imp"⟩, .feat ⟨4, "raw"⟩]

def aspects : List Val :=
  [ph_class, airstream, manner, place, articulator, height, backness, breathiness, voicing, labialization, lateralization, nasalization, palatalization, rhoticization, duration, syllabicity, language, script, gr_class, case, type]

end Nisaba.Feature.Data
