import Verif.Model.PhonInv
/-!
# Model of script/inventories/latn.py and language_params/en.py

The Latin letters and the letters of English with their descriptive features, on the profiles of
`Verif.Model.PhonInv`.  A letter is kept as a `Phoneme` whose `ipa` is its text and whose name is left
out.  Left out are also the features of script, class and case, the pairing of upper and lower case
(see `Verif.Model.FeaturePair`) and the expressions in `atomics`.
-/
namespace Nisaba.PhonInv

/-- script/grapheme.py:105-144 `Grapheme.from_char`: a new descriptive profile
(phonological_symbol.py:45-48) and then the features given. -/
def grapheme (text alias : Str) (fs : List Fe) : Phoneme :=
  ⟨text, alias, [], addFeatures (newProfile []) fs⟩

/-- descriptive.py:175-192: sets of heights and of degrees of backness. -/
def Phf.height.open_like : List Fe := [Phf.height.near_open, Phf.height.«open»]
def Phf.height.mid_like : List Fe := [Phf.height.close_mid, Phf.height.«mid», Phf.height.open_mid]
def Phf.height.close_like : List Fe := [Phf.height.close, Phf.height.near_close]
def Phf.backness.front_like : List Fe := [Phf.backness.front, Phf.backness.near_front]
def Phf.backness.back_like : List Fe := [Phf.backness.near_back, Phf.backness.back]

/-- latn.py:26. -/
def latnVowels : List Str := [a!"a", a!"e", a!"i", a!"o", a!"u"]

/-- latn.py:62-84. -/
def latnConsonants : List Str :=
  [a!"b", a!"c", a!"d", a!"f", a!"g", a!"h", a!"j", a!"k", a!"l", a!"m", a!"n", a!"p", a!"q", a!"r",
   a!"s", a!"t", a!"v", a!"w", a!"x", a!"y", a!"z"]

/-- latn.py:37-61, 96-150: the calls of `update_descriptives`. -/
def latnUpdates : List (List Str × List Fe) := [
  -- 37-61
  ([a!"a"], Phf.height.open_like ++ Phf.backness.front_like ++ [Phf.labialization.unrounded]),
  ([a!"e"], Phf.height.mid_like ++ Phf.backness.front_like ++ [Phf.labialization.unrounded]),
  ([a!"i"], Phf.height.close_like ++ Phf.backness.front_like ++ [Phf.labialization.unrounded]),
  ([a!"o"], Phf.height.open_like ++ Phf.backness.back_like ++ [Phf.labialization.rounded]),
  ([a!"u"], Phf.height.close_like ++ Phf.backness.back_like ++ [Phf.labialization.rounded]),
  -- 96-121
  ([a!"b", a!"m", a!"p"], Phf.bilabial),
  ([a!"f", a!"v"], Phf.labiodental),
  ([a!"c", a!"d", a!"j", a!"l", a!"n", a!"r", a!"s", a!"t", a!"z"], Phf.para_alveolar ++ Phf.retroflex),
  ([a!"y"], Phf.palatal),
  ([a!"g", a!"k", a!"q"], Phf.velar),
  ([a!"w"], Phf.bilabial ++ Phf.velar),
  ([a!"x"], Phf.alveolar ++ Phf.velar),
  ([a!"h"], Phf.glottal),
  -- 123-136
  ([a!"m", a!"n"], Phf.nasal),
  ([a!"b", a!"d", a!"g", a!"k", a!"p", a!"t"], [Phf.manner.stop]),
  ([a!"f", a!"h", a!"s", a!"v", a!"z"], [Phf.manner.fricative]),
  ([a!"c", a!"j", a!"x"], [Phf.manner.stop, Phf.manner.fricative]),
  ([a!"w", a!"y"], Phf.approximant),
  ([a!"l"], Phf.lateral_approximant),
  ([a!"r"], [Phf.rhoticization.rhotic]),
  -- 138-150
  ([a!"b", a!"d", a!"g", a!"j", a!"v", a!"z"], [Phf.voicing.voiced]),
  ([a!"c", a!"f", a!"k", a!"p", a!"q", a!"s", a!"t", a!"x"], [Phf.voicing.voiceless])]

/-- latn.py:25-150: the lower case letters. -/
def latnLower : Option (List Phoneme) :=
  latnUpdates.foldlM updateLoop
    ((latnVowels.map (fun c => grapheme c c (features (newProfile Phf.vowel))) ++
      latnConsonants.map (fun c => grapheme c c (features (newProfile Phf.consonant)))).foldl
        addPhoneme [])

/-- `str.upper` of the lower case letters. -/
def upperText (s : Str) : Str := s.map (fun c => c - 32)

/-- latn.py:153-163: the upper case letter made from a lower case letter. -/
def upperOf (p : Phoneme) : Phoneme :=
  grapheme (upperText p.ipa) (p.alias ++ a!"_upper") (features p.desc)

/-- latn.py:172-183. -/
def numbers : List (Str × Str) :=
  [(a!"0", a!"zero"), (a!"1", a!"one"), (a!"2", a!"two"), (a!"3", a!"three"), (a!"4", a!"four"),
   (a!"5", a!"five"), (a!"6", a!"six"), (a!"7", a!"seven"), (a!"8", a!"eight"), (a!"9", a!"nine")]

/-- An inventory of graphemes: its symbols, and the aliases in its lists. -/
structure Letters where
  symbols : List Phoneme
  lower : List Str
  upper : List Str
  vowel : List Str
  consonant : List Str
  number : List Str
  deriving DecidableEq

/-- phonological_symbol.py:67-68 `has_feature`, for descriptive features. -/
def hasFeature (p : Phoneme) (f : Fe) : Bool := (features p.desc).contains f

/-- latn.py:18-206 `_build_inventory`; the symbols that are already in the inventory when a symbol
is added do not have its alias. -/
def latin : Option Letters :=
  match latnLower with
  | none => none
  | some low =>
    let up := low.map upperOf
    let nums := numbers.map (fun n => grapheme n.1 n.2 (features notApplicable))
    some {
      symbols := (low ++ up ++ nums).foldl addPhoneme []
      lower := low.map (·.alias)
      upper := up.map (·.alias)
      vowel := latnVowels ++ (up.filter (hasFeature · Phf.ph_class.vowel)).map (·.alias)
      consonant := latnConsonants ++ (up.filter (hasFeature · Phf.ph_class.consonant)).map (·.alias)
      number := nums.map (·.alias) }

/-- A symbol that a letter takes features from: a universal phoneme or a letter of the inventory. -/
inductive Source
  | ph (alias : Str)
  | gr (alias : Str)

/-- en.py:74-198: the calls of `update_descriptives_from_symbol`. -/
def enUpdates : List (Str × List Source) := [
  (a!"a", [.ph a!"ae", .ph a!"e", .ph a!"iy", .ph a!"aw", .ph a!"eh", .ph a!"ec"]),
  (a!"e", [.ph a!"eh", .ph a!"i", .ph a!"ex", .ph a!"iy", .ph a!"ec"]),
  (a!"i", [.ph a!"iy", .ph a!"a", .ph a!"ex", .ph a!"ec"]),
  (a!"o", [.ph a!"ow", .ph a!"o", .ph a!"uv", .ph a!"oh"]),
  (a!"u", [.ph a!"ah", .ph a!"uv", .ph a!"u", .ph a!"ec"]),
  (a!"b", [.ph a!"b"]),
  (a!"c", [.ph a!"s", .ph a!"k"]),
  (a!"d", [.ph a!"d"]),
  (a!"f", [.ph a!"f"]),
  (a!"g", [.ph a!"g", .ph a!"d", .ph a!"zh"]),
  (a!"h", [.ph a!"h"]),
  (a!"j", [.ph a!"d", .ph a!"zh", .ph a!"y", .ph a!"h"]),
  (a!"k", [.ph a!"k"]),
  (a!"l", [.ph a!"l"]),
  (a!"m", [.ph a!"m"]),
  (a!"n", [.ph a!"n"]),
  (a!"p", [.ph a!"p"]),
  (a!"q", [.ph a!"k"]),
  (a!"r", [.ph a!"r"]),
  (a!"s", [.ph a!"s", .ph a!"z", .ph a!"sh", .ph a!"zh"]),
  (a!"t", [.ph a!"t", .ph a!"sh", .ph a!"zh"]),
  (a!"v", [.ph a!"v"]),
  (a!"w", [.ph a!"w"]),
  (a!"x", [.ph a!"k", .ph a!"s", .ph a!"g", .ph a!"z", .ph a!"zh", .ph a!"sh"]),
  (a!"y", [.ph a!"y", .gr a!"i"]),
  (a!"z", [.ph a!"z", .ph a!"zh", .ph a!"t", .ph a!"s"])]

/-- `inventory.alias`; `none` is an `AttributeError`. -/
def find (inv : List Phoneme) (alias : Str) : Option Phoneme :=
  inv.find? (fun q => NT.seq q.alias alias)

/-- The descriptive features of a source. -/
def sourceDesc (phs gr : List Phoneme) : Source → Option Profile
  | .ph a => (find phs a).map (·.desc)
  | .gr a => (find gr a).map (·.desc)

/-- phonological_symbol.py:60-65 for the symbol with an alias. -/
def fromSymbols (gr : List Phoneme) (alias : Str) (symbols : List Profile) : Option (List Phoneme) :=
  if gr.any (fun q => NT.seq q.alias alias) then
    some (gr.map (fun q =>
      if NT.seq q.alias alias then { q with desc := updateFromSymbols q.desc symbols } else q))
  else none

/-- en.py:74-198: one call. -/
def enStep (phs gr : List Phoneme) (op : Str × List Source) : Option (List Phoneme) :=
  match op.2.mapM (sourceDesc phs gr) with
  | none => none
  | some ds => fromSymbols gr op.1 ds

/-- en.py:199-200: one upper case letter takes the features of its lower case letter. -/
def enUpperStep (gr : List Phoneme) (pair : Str × Str) : Option (List Phoneme) :=
  match find gr pair.1 with
  | none => none
  | some low => fromSymbols gr pair.2 [low.desc]

/-- script/grapheme.py:154-167 `copy`. -/
def copyGrapheme (p : Phoneme) : Phoneme := grapheme p.ipa p.alias (features p.desc)

/-- en.py:31-58: the aliases of the lower case letters. -/
def enLower : List Str :=
  [a!"a", a!"b", a!"c", a!"d", a!"e", a!"f", a!"g", a!"h", a!"i", a!"j", a!"k", a!"l", a!"m", a!"n",
   a!"o", a!"p", a!"q", a!"r", a!"s", a!"t", a!"u", a!"v", a!"w", a!"x", a!"y", a!"z"]

def upperAlias (a : Str) : Str := a ++ a!"_upper"

/-- en.py:201. -/
def enVowels : List Str := [a!"a", a!"e", a!"i", a!"o", a!"u", a!"y"]

/-- en.py:202-224. -/
def enConsonants : List Str := latnConsonants

/-- en.py:25-237 `_latn_inventory`.  By en.py:59-63 the letters are imported in pairs of lower and
upper case, which are paired in latn.py:168 (see `Verif.Props.FeaturePair`). -/
def english : Option Letters :=
  match latin, phonemes with
  | some latn, some phs =>
    match (enLower.flatMap (fun a => [a, upperAlias a])).mapM (find latn.symbols),
      latn.number.mapM (find latn.symbols) with
    | some letters, some nums =>
      let gr := (letters.map copyGrapheme).foldl addPhoneme []
      match enUpdates.foldlM (enStep phs) gr with
      | none => none
      | some gr =>
        match (enLower.map (fun a => (a, upperAlias a))).foldlM enUpperStep gr with
        | none => none
        | some gr => some {
            symbols := (nums.map copyGrapheme).foldl addPhoneme gr
            lower := enLower
            upper := enLower.map upperAlias
            vowel := enVowels ++ enVowels.map upperAlias
            consonant := enConsonants ++ enConsonants.map upperAlias
            number := latn.number }
    | _, _ => none
  | _, _ => none

end Nisaba.PhonInv
