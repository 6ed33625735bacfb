/-!
# Shapes of the rule tables

Text is a list of Unicode code points.  The pynini "generated symbols"
(`[VIRAMA,ZWNJ]` etc., nisaba/scripts/brahmic/data/preserve.textproto) are labels
above the Unicode range (`0x110000` and up).
-/
namespace Nisaba

/-- Text: a list of code points (or bytes, where a statement is about bytes). -/
abbrev Str := List Nat

/-- A rule or a row of a TSV file: left-hand side and right-hand side.
nisaba/scripts/utils/rule.py:75 `Rule`. -/
abbrev Rule := Str × Str

/-- Tables of one Brahmic script: nisaba/scripts/brahmic/data/<Script>/*.textproto.
One-column rows of files read with `pynini.string_file` are acceptors and stored as
`(x, x)`; one-column rows of files read by `rule.py:rules_from_string_path` have an empty
right-hand side. -/
structure BrahmicData where
  name : String
  consonant : List Rule
  deadConsonant : List Rule
  subjoined : List Rule
  vowelSign : List Rule
  vowel : List Rule
  vowelLength : List Rule
  coda : List Rule
  standalone : List Rule
  virama : List Rule
  inherent : List Rule
  accept : List Rule
  preserve : List Rule
  nfc : List Rule
  visualRewrite : List Rule
  readingNorm : List Rule
  /-- The script characters of Unicode general category `Mn`
  (char_util.py:62-71 `mark_chars`, without the three joiners). -/
  marks : List Nat
  /-- script_config.textproto `no_inherent_vowel`. -/
  noInherentVowel : Bool

/-- Per-language tables of the abjad/alphabet library:
nisaba/scripts/abjad_alphabet/data/Arab/<lang>/*.textproto. -/
structure AbjadData where
  lang : String
  visualNorm : List Rule
  nonfinal : List Rule
  finalIsolated : List Rule
  isolated : List Rule
  readingNorm : List Rule

/-- nisaba/scripts/utils/char.py:25 -/
def ZWNJ : Nat := nat_lit 8204
/-- nisaba/scripts/utils/char.py:26 -/
def ZWJ : Nat := nat_lit 8205
/-- nisaba/scripts/utils/char.py:27 -/
def ZWS : Nat := nat_lit 8203

end Nisaba
