import Verif.Data.PhonInv
import Verif.Model.Profile
/-!
# Model of nisaba/scripts/natural_translit/phonology/inventories/x_uni.py

The universal phonemes with their descriptive features.  The objects of `Verif.Model.Profile` are
replaced by their values: a profile is the list of its value sets, in the order of the aspects, and a
symbol carries its profile; a profile is only ever changed through its own symbol.  Not modelled here:
the indices of the phonemes (see `Verif.Model.PhonIndex`) and the expressions in `atomics`, of which
only the features are kept.
-/
namespace Nisaba.PhonInv
open Nisaba.Feature (Val Aspect toSet setDistance errorDistance similarityOf CompareErr)

/-- feature.py:732-785 `Profile` of the descriptive features: the values for each aspect. -/
abbrev Profile := List (List Nat)

/-- feature.py:236-250 `Set.group_by_aspect`: the features of one aspect. -/
def group (fs : List Fe) (a : Nat) : List Nat :=
  toSet ((fs.filter (fun f => Nat.beq f.1 a)).map (·.2))

/-- feature.py:779-784, the loop of `Profile.__init__` from aspect `a` on, `n` aspects. -/
def buildFrom (deflt : Nat) (fs : List Fe) (a : Nat) : Nat → Profile
  | 0 => []
  | n + 1 =>
    (if (group fs a).isEmpty then [deflt] else group fs a) :: buildFrom deflt fs (a + 1) n

/-- feature.py:759-785 `Profile.__init__`. -/
def newProfile (fs : List Fe) : Profile := buildFrom 1000 fs 0 roots.length

/-- feature.py:694-701: the profile `not_applicable`. -/
def notApplicable : Profile := buildFrom 1001 [] 0 roots.length

/-- The features that feature.py:228-234 `Set.add` finds in a profile, from aspect `a` on. -/
def featuresFrom (a : Nat) : Profile → List Fe
  | [] => []
  | s :: p => s.map (fun v => (a, v)) ++ featuresFrom (a + 1) p

def features (p : Profile) : List Fe := featuresFrom 0 p

/-- feature.py:849-850, the loop of `Profile.update`, from aspect `a` on. -/
def updateFrom (fs : List Fe) (a : Nat) : Profile → Profile
  | [] => []
  | s :: p => (if (group fs a).isEmpty then s else group fs a) :: updateFrom fs (a + 1) p

/-- feature.py:820-851 `Profile.update`; phonological_symbol.py:53-58 `update_descriptives`. -/
def update (p : Profile) (fs : List Fe) : Profile := updateFrom fs 0 p

/-- utils/symbol.py:423-425, from aspect `a` on: `any` is replaced by the features given. -/
def addFrom (fs : List Fe) (a : Nat) : Profile → Profile
  | [] => []
  | s :: p =>
    (if (group fs a).isEmpty then s
      else (group fs a).foldl Feature.insertId (s.filter (fun v => !Nat.beq v 1000))) ::
      addFrom fs (a + 1) p

/-- utils/symbol.py:385-425 `Symbol.add_features`, for descriptive features. -/
def addFeatures (p : Profile) (fs : List Fe) : Profile := addFrom fs 0 p

/-- phonological_symbol.py:126-145 `Phon`. -/
structure Phoneme where
  ipa : Str
  alias : Str
  name : Str
  desc : Profile
  deriving DecidableEq

/-- phonological_symbol.py:129-145 `Phon.__init__`: a new profile (lines 45-48), then the features
given; here those of the profile `phf.vowel` or `phf.consonant`. -/
def phon (features : Profile) (row : Str × Str × Str) : Phoneme :=
  ⟨row.1, row.2.1, row.2.2, addFeatures (newProfile []) (PhonInv.features features)⟩

/-- phonological_symbol.py:177-186 `_add_phoneme`: nothing happens if the alias is taken.
Simplification: of the other fields of the inventory only the aliases of phonemes matter. -/
def addPhoneme (inv : List Phoneme) (p : Phoneme) : List Phoneme :=
  if inv.any (fun q => NT.seq q.alias p.alias) then inv else inv ++ [p]

/-- `ph.alias.update_descriptives(features)` (phonological_symbol.py:53-58); `none` is an
`AttributeError`. -/
def updateOne (fs : List Fe) (inv : List Phoneme) (alias : Str) : Option (List Phoneme) :=
  if inv.any (fun q => NT.seq q.alias alias) then
    some (inv.map (fun q => if NT.seq q.alias alias then { q with desc := update q.desc fs } else q))
  else none

/-- x_uni.py:67-439: one loop. -/
def updateLoop (inv : List Phoneme) (op : List Str × List Fe) : Option (List Phoneme) :=
  op.1.foldlM (updateOne op.2) inv

/-- x_uni.py:20-440 `_phoneme_inventory` for given tables.  The vowels are updated before the
consonants are added, which is the same as afterwards since every update names its phonemes. -/
def inventory (vowels consonants : List (Str × Str × Str)) (ops : List (List Str × List Fe)) :
    Option (List Phoneme) :=
  ops.foldlM updateLoop
    ((vowels.map (phon (newProfile Phf.vowel)) ++
      consonants.map (phon (newProfile Phf.consonant))).foldl addPhoneme [])

/-- x_uni.py:443 `PHONEMES`. -/
def phonemes : Option (List Phoneme) := inventory vowels consonants updates

/-- phonological_symbol.py:116-118, the loop of `sync_atomics` for the atomic with profile `q` of a
symbol with profile `p`: `profile.update(symbol.features.get(profile.inventory))`. -/
def sync (q p : Profile) : Profile := update q (features p)

/-- phonological_symbol.py:60-65 `update_descriptives_from_symbol`. -/
def updateFromSymbols (p : Profile) (symbols : List Profile) : Profile :=
  update p (symbols.flatMap features)

/-- feature.py:163-186 `Feature.distance` of two features of the aspect with the given values. -/
def dist (root : Val) (f g : Nat) : Rat :=
  if f = g then 0 else ((Aspect.populate root 1000 1001).distance f g).getD errorDistance

/-- feature.py:885-890, the loop of `compare`: total distance and maximum distance. -/
def totals : List Val → Profile → Profile → Rat × Rat
  | r :: rs, s :: p, t :: q =>
    (setDistance (dist r) s t + (totals rs p q).1,
      (Aspect.populate r 1000 1001).maxDist + (totals rs p q).2)
  | _, _, _ => (0, 0)

/-- feature.py:853-910, 920-923 `Profile.similarity` on all aspects. -/
def similarity (p q : Profile) : Except CompareErr Rat := similarityOf (totals roots p q)

end Nisaba.PhonInv
