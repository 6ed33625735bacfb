import Verif.Model.Tables
/-!
# The keys of the Malayalam fixed rule romanization

What a user expects of the keys (the Mozhi scheme, nisaba/scripts/brahmic/fixed.py:15-25 and
testdata/fixed.textproto): pairs of key sequences and Malayalam letters.  These tables are part of the
specification, not of the code; the letters are chosen from the scheme, independently of the rules in
data/Mlym/fixed.textproto.
-/
namespace Nisaba.Keys

/-- Vowel letters. -/
def initials : List (Str × Str) := [
  /- a അ -/ ([nat_lit 97], [nat_lit 3333]),
  /- aa ആ -/ ([nat_lit 97, nat_lit 97], [nat_lit 3334]),
  /- i ഇ -/ ([nat_lit 105], [nat_lit 3335]),
  /- ii ഈ -/ ([nat_lit 105, nat_lit 105], [nat_lit 3336]),
  /- u ഉ -/ ([nat_lit 117], [nat_lit 3337]),
  /- uu ഊ -/ ([nat_lit 117, nat_lit 117], [nat_lit 3338]),
  /- R ഋ -/ ([nat_lit 82], [nat_lit 3339]),
  /- RR ൠ -/ ([nat_lit 82, nat_lit 82], [nat_lit 3424]),
  /- e എ -/ ([nat_lit 101], [nat_lit 3342]),
  /- E ഏ -/ ([nat_lit 69], [nat_lit 3343]),
  /- o ഒ -/ ([nat_lit 111], [nat_lit 3346]),
  /- O ഓ -/ ([nat_lit 79], [nat_lit 3347]),
  /- ai ഐ -/ ([nat_lit 97, nat_lit 105], [nat_lit 3344]),
  /- au ഔ -/ ([nat_lit 97, nat_lit 117], [nat_lit 3348])]

/-- Consonants that are written with a virama when another consonant follows.  The nasals and
liquids, which have other forms there, `h`, which marks aspirates, and `rr` are left out. -/
def bare : List (Str × Str) := [
  /- k ക് -/ ([nat_lit 107], [nat_lit 3349, nat_lit 3405]),
  /- kh ഖ് -/ ([nat_lit 107, nat_lit 104], [nat_lit 3350, nat_lit 3405]),
  /- g ഗ് -/ ([nat_lit 103], [nat_lit 3351, nat_lit 3405]),
  /- gh ഘ് -/ ([nat_lit 103, nat_lit 104], [nat_lit 3352, nat_lit 3405]),
  /- ng ങ് -/ ([nat_lit 110, nat_lit 103], [nat_lit 3353, nat_lit 3405]),
  /- ch ച് -/ ([nat_lit 99, nat_lit 104], [nat_lit 3354, nat_lit 3405]),
  /- chh ഛ് -/ ([nat_lit 99, nat_lit 104, nat_lit 104], [nat_lit 3355, nat_lit 3405]),
  /- j ജ് -/ ([nat_lit 106], [nat_lit 3356, nat_lit 3405]),
  /- jh ഝ് -/ ([nat_lit 106, nat_lit 104], [nat_lit 3357, nat_lit 3405]),
  /- nj ഞ് -/ ([nat_lit 110, nat_lit 106], [nat_lit 3358, nat_lit 3405]),
  /- T ട് -/ ([nat_lit 84], [nat_lit 3359, nat_lit 3405]),
  /- Th ഠ് -/ ([nat_lit 84, nat_lit 104], [nat_lit 3360, nat_lit 3405]),
  /- D ഡ് -/ ([nat_lit 68], [nat_lit 3361, nat_lit 3405]),
  /- Dh ഢ് -/ ([nat_lit 68, nat_lit 104], [nat_lit 3362, nat_lit 3405]),
  /- th ത് -/ ([nat_lit 116, nat_lit 104], [nat_lit 3364, nat_lit 3405]),
  /- thh ഥ് -/ ([nat_lit 116, nat_lit 104, nat_lit 104], [nat_lit 3365, nat_lit 3405]),
  /- d ദ് -/ ([nat_lit 100], [nat_lit 3366, nat_lit 3405]),
  /- dh ധ് -/ ([nat_lit 100, nat_lit 104], [nat_lit 3367, nat_lit 3405]),
  /- p പ് -/ ([nat_lit 112], [nat_lit 3370, nat_lit 3405]),
  /- ph ഫ് -/ ([nat_lit 112, nat_lit 104], [nat_lit 3371, nat_lit 3405]),
  /- b ബ് -/ ([nat_lit 98], [nat_lit 3372, nat_lit 3405]),
  /- bh ഭ് -/ ([nat_lit 98, nat_lit 104], [nat_lit 3373, nat_lit 3405]),
  /- v വ് -/ ([nat_lit 118], [nat_lit 3381, nat_lit 3405]),
  /- y യ് -/ ([nat_lit 121], [nat_lit 3375, nat_lit 3405]),
  /- S ശ് -/ ([nat_lit 83], [nat_lit 3382, nat_lit 3405]),
  /- s സ് -/ ([nat_lit 115], [nat_lit 3384, nat_lit 3405]),
  /- zh ഴ് -/ ([nat_lit 122, nat_lit 104], [nat_lit 3380, nat_lit 3405]),
  /- sh ഷ് -/ ([nat_lit 115, nat_lit 104], [nat_lit 3383, nat_lit 3405])]

/-- Consonants and conjuncts that begin a syllable, other than `h`. -/
def onsets : List (Str × Str) := [
  /- v വ -/ ([nat_lit 118], [nat_lit 3381]),
  /- k ക -/ ([nat_lit 107], [nat_lit 3349]),
  /- kh ഖ -/ ([nat_lit 107, nat_lit 104], [nat_lit 3350]),
  /- g ഗ -/ ([nat_lit 103], [nat_lit 3351]),
  /- gh ഘ -/ ([nat_lit 103, nat_lit 104], [nat_lit 3352]),
  /- ng ങ -/ ([nat_lit 110, nat_lit 103], [nat_lit 3353]),
  /- ch ച -/ ([nat_lit 99, nat_lit 104], [nat_lit 3354]),
  /- chh ഛ -/ ([nat_lit 99, nat_lit 104, nat_lit 104], [nat_lit 3355]),
  /- j ജ -/ ([nat_lit 106], [nat_lit 3356]),
  /- jh ഝ -/ ([nat_lit 106, nat_lit 104], [nat_lit 3357]),
  /- nj ഞ -/ ([nat_lit 110, nat_lit 106], [nat_lit 3358]),
  /- T ട -/ ([nat_lit 84], [nat_lit 3359]),
  /- Th ഠ -/ ([nat_lit 84, nat_lit 104], [nat_lit 3360]),
  /- D ഡ -/ ([nat_lit 68], [nat_lit 3361]),
  /- Dh ഢ -/ ([nat_lit 68, nat_lit 104], [nat_lit 3362]),
  /- N ണ -/ ([nat_lit 78], [nat_lit 3363]),
  /- th ത -/ ([nat_lit 116, nat_lit 104], [nat_lit 3364]),
  /- thh ഥ -/ ([nat_lit 116, nat_lit 104, nat_lit 104], [nat_lit 3365]),
  /- d ദ -/ ([nat_lit 100], [nat_lit 3366]),
  /- dh ധ -/ ([nat_lit 100, nat_lit 104], [nat_lit 3367]),
  /- n ന -/ ([nat_lit 110], [nat_lit 3368]),
  /- p പ -/ ([nat_lit 112], [nat_lit 3370]),
  /- ph ഫ -/ ([nat_lit 112, nat_lit 104], [nat_lit 3371]),
  /- b ബ -/ ([nat_lit 98], [nat_lit 3372]),
  /- bh ഭ -/ ([nat_lit 98, nat_lit 104], [nat_lit 3373]),
  /- m മ -/ ([nat_lit 109], [nat_lit 3374]),
  /- y യ -/ ([nat_lit 121], [nat_lit 3375]),
  /- r ര -/ ([nat_lit 114], [nat_lit 3376]),
  /- l ല -/ ([nat_lit 108], [nat_lit 3378]),
  /- S ശ -/ ([nat_lit 83], [nat_lit 3382]),
  /- s സ -/ ([nat_lit 115], [nat_lit 3384]),
  /- L ള -/ ([nat_lit 76], [nat_lit 3379]),
  /- zh ഴ -/ ([nat_lit 122, nat_lit 104], [nat_lit 3380]),
  /- sh ഷ -/ ([nat_lit 115, nat_lit 104], [nat_lit 3383]),
  /- rr റ -/ ([nat_lit 114, nat_lit 114], [nat_lit 3377]),
  /- t റ്റ -/ ([nat_lit 116], [nat_lit 3377, nat_lit 3405, nat_lit 3377]),
  /- nn ന്ന -/ ([nat_lit 110, nat_lit 110], [nat_lit 3368, nat_lit 3405, nat_lit 3368]),
  /- NN ണ്ണ -/ ([nat_lit 78, nat_lit 78], [nat_lit 3363, nat_lit 3405, nat_lit 3363]),
  /- ll ല്ല -/ ([nat_lit 108, nat_lit 108], [nat_lit 3378, nat_lit 3405, nat_lit 3378]),
  /- LL ള്ള -/ ([nat_lit 76, nat_lit 76], [nat_lit 3379, nat_lit 3405, nat_lit 3379]),
  /- mm മ്മ -/ ([nat_lit 109, nat_lit 109], [nat_lit 3374, nat_lit 3405, nat_lit 3374]),
  /- nth ന്ത -/ ([nat_lit 110, nat_lit 116, nat_lit 104], [nat_lit 3368, nat_lit 3405, nat_lit 3364]),
  /- nthh ന്ഥ -/ ([nat_lit 110, nat_lit 116, nat_lit 104, nat_lit 104], [nat_lit 3368, nat_lit 3405, nat_lit 3365]),
  /- nd ന്ദ -/ ([nat_lit 110, nat_lit 100], [nat_lit 3368, nat_lit 3405, nat_lit 3366]),
  /- ndh ന്ധ -/ ([nat_lit 110, nat_lit 100, nat_lit 104], [nat_lit 3368, nat_lit 3405, nat_lit 3367]),
  /- NT ണ്ട -/ ([nat_lit 78, nat_lit 84], [nat_lit 3363, nat_lit 3405, nat_lit 3359]),
  /- NTh ണ്ഠ -/ ([nat_lit 78, nat_lit 84, nat_lit 104], [nat_lit 3363, nat_lit 3405, nat_lit 3360]),
  /- ND ണ്ഡ -/ ([nat_lit 78, nat_lit 68], [nat_lit 3363, nat_lit 3405, nat_lit 3361]),
  /- NDh ണ്ഢ -/ ([nat_lit 78, nat_lit 68, nat_lit 104], [nat_lit 3363, nat_lit 3405, nat_lit 3362]),
  /- mp മ്പ -/ ([nat_lit 109, nat_lit 112], [nat_lit 3374, nat_lit 3405, nat_lit 3370]),
  /- mph മ്ഫ -/ ([nat_lit 109, nat_lit 112, nat_lit 104], [nat_lit 3374, nat_lit 3405, nat_lit 3371]),
  /- lp ല്പ -/ ([nat_lit 108, nat_lit 112], [nat_lit 3378, nat_lit 3405, nat_lit 3370]),
  /- lph ല്ഫ -/ ([nat_lit 108, nat_lit 112, nat_lit 104], [nat_lit 3378, nat_lit 3405, nat_lit 3371]),
  /- nm ന്മ -/ ([nat_lit 110, nat_lit 109], [nat_lit 3368, nat_lit 3405, nat_lit 3374]),
  /- Nm ണ്മ -/ ([nat_lit 78, nat_lit 109], [nat_lit 3363, nat_lit 3405, nat_lit 3374]),
  /- lm ല്മ -/ ([nat_lit 108, nat_lit 109], [nat_lit 3378, nat_lit 3405, nat_lit 3374]),
  /- ny ന്യ -/ ([nat_lit 110, nat_lit 121], [nat_lit 3368, nat_lit 3405, nat_lit 3375]),
  /- nv ന്വ -/ ([nat_lit 110, nat_lit 118], [nat_lit 3368, nat_lit 3405, nat_lit 3381]),
  /- Ny ണ്യ -/ ([nat_lit 78, nat_lit 121], [nat_lit 3363, nat_lit 3405, nat_lit 3375]),
  /- Nv ണ്വ -/ ([nat_lit 78, nat_lit 118], [nat_lit 3363, nat_lit 3405, nat_lit 3381]),
  /- ly ല്യ -/ ([nat_lit 108, nat_lit 121], [nat_lit 3378, nat_lit 3405, nat_lit 3375]),
  /- lv ല്വ -/ ([nat_lit 108, nat_lit 118], [nat_lit 3378, nat_lit 3405, nat_lit 3381]),
  /- Ly ള്യ -/ ([nat_lit 76, nat_lit 121], [nat_lit 3379, nat_lit 3405, nat_lit 3375]),
  /- Lv ള്വ -/ ([nat_lit 76, nat_lit 118], [nat_lit 3379, nat_lit 3405, nat_lit 3381]),
  /- ry ര്യ -/ ([nat_lit 114, nat_lit 121], [nat_lit 3376, nat_lit 3405, nat_lit 3375]),
  /- rv ര്വ -/ ([nat_lit 114, nat_lit 118], [nat_lit 3376, nat_lit 3405, nat_lit 3381]),
  /- my മ്യ -/ ([nat_lit 109, nat_lit 121], [nat_lit 3374, nat_lit 3405, nat_lit 3375]),
  /- mv മ്വ -/ ([nat_lit 109, nat_lit 118], [nat_lit 3374, nat_lit 3405, nat_lit 3381]),
  /- nr ന്ര -/ ([nat_lit 110, nat_lit 114], [nat_lit 3368, nat_lit 3405, nat_lit 3376]),
  /- Nr ണ്ര -/ ([nat_lit 78, nat_lit 114], [nat_lit 3363, nat_lit 3405, nat_lit 3376]),
  /- lr ല്ര -/ ([nat_lit 108, nat_lit 114], [nat_lit 3378, nat_lit 3405, nat_lit 3376]),
  /- Lr ള്ര -/ ([nat_lit 76, nat_lit 114], [nat_lit 3379, nat_lit 3405, nat_lit 3376]),
  /- mr മ്ര -/ ([nat_lit 109, nat_lit 114], [nat_lit 3374, nat_lit 3405, nat_lit 3376])]

/-- Vowels that follow a consonant.  The first one is inherent. -/
def vowels : List (Str × Str) := [
  /- a  -/ ([nat_lit 97], []),
  /- aa ◌ാ -/ ([nat_lit 97, nat_lit 97], [nat_lit 3390]),
  /- i ◌ി -/ ([nat_lit 105], [nat_lit 3391]),
  /- ii ◌ീ -/ ([nat_lit 105, nat_lit 105], [nat_lit 3392]),
  /- u ◌ു -/ ([nat_lit 117], [nat_lit 3393]),
  /- uu ◌ൂ -/ ([nat_lit 117, nat_lit 117], [nat_lit 3394]),
  /- e ◌െ -/ ([nat_lit 101], [nat_lit 3398]),
  /- E ◌േ -/ ([nat_lit 69], [nat_lit 3399]),
  /- o ◌ൊ -/ ([nat_lit 111], [nat_lit 3402]),
  /- O ◌ോ -/ ([nat_lit 79], [nat_lit 3403]),
  /- ai ◌ൈ -/ ([nat_lit 97, nat_lit 105], [nat_lit 3400]),
  /- au ൗ -/ ([nat_lit 97, nat_lit 117], [nat_lit 3415]),
  /- R ◌ൃ -/ ([nat_lit 82], [nat_lit 3395]),
  /- RR ◌ൄ -/ ([nat_lit 82, nat_lit 82], [nat_lit 3396])]

/-- Signs and letters that end a word.  For `r` this is the dot reph; the chillu that is usual today
cannot be typed (C96). -/
def finals : List (Str × Str) := [
  /- m ം -/ ([nat_lit 109], [nat_lit 3330]),
  /- n ൻ -/ ([nat_lit 110], [nat_lit 3451]),
  /- N ൺ -/ ([nat_lit 78], [nat_lit 3450]),
  /- l ൽ -/ ([nat_lit 108], [nat_lit 3453]),
  /- L ൾ -/ ([nat_lit 76], [nat_lit 3454]),
  /- r ൎ -/ ([nat_lit 114], [nat_lit 3406]),
  /- H ഃ -/ ([nat_lit 72], [nat_lit 3331])]

/-- `h`. -/
def ha : List (Str × Str) := [([nat_lit 104], [nat_lit 3385])]

/-- Syllables of a consonant or conjunct and a vowel. -/
def syllables (on : List (Str × Str)) : List (Str × Str) :=
  on.flatMap fun c => vowels.map fun v => (c.1 ++ v.1, c.2 ++ v.2)

/-- `mO`. -/
def mO : Str := [nat_lit 109, nat_lit 79]

/-- The pieces of words: vowel letters, bare consonants, syllables, syllables with `h`, finals. -/
def pieces : List (List (Str × Str)) := [initials, bare, syllables onsets, syllables ha, finals]

/-- Which pieces may follow each other: anything but a vowel letter follows a vowel, and bare
consonants are followed by bare consonants and syllables without `h`. -/
def follow : List (Nat × Nat) :=
  [(nat_lit 0, nat_lit 1), (nat_lit 0, nat_lit 2), (nat_lit 0, nat_lit 3), (nat_lit 0, nat_lit 4),
   (nat_lit 1, nat_lit 1), (nat_lit 1, nat_lit 2),
   (nat_lit 2, nat_lit 1), (nat_lit 2, nat_lit 2), (nat_lit 2, nat_lit 3), (nat_lit 2, nat_lit 4),
   (nat_lit 3, nat_lit 1), (nat_lit 3, nat_lit 2), (nat_lit 3, nat_lit 3), (nat_lit 3, nat_lit 4)]

/-- A word: pieces with their groups, each of which may be followed by the next one. -/
def Word : List (Nat × Str × Str) → Prop
  | [] => True
  | [p] => p.2 ∈ pieces.getD p.1 []
  | p :: q :: l => p.2 ∈ pieces.getD p.1 [] ∧ (p.1, q.1) ∈ follow ∧ Word (q :: l)

/-- The keys of a word. -/
def keys (l : List (Nat × Str × Str)) : Str := (l.map fun p => p.2.1).flatten

/-- The letters of a word. -/
def letters (l : List (Nat × Str × Str)) : Str := (l.map fun p => p.2.2).flatten

end Nisaba.Keys
