import Verif.Model.Brahmic
import Verif.Model.Wellformed
/-!
# Model of nisaba/scripts/brahmic/iso.py

Weighted transducers are weighted relations (`WRel`).
-/
namespace Nisaba

namespace WRel

/-- nisaba/scripts/utils/file.py:44-46 `OnEmpty`.  The code tests whether the transducer has a
start state; the model tests whether it relates anything. -/
def onEmpty (a : WRel) (ifEmpty : WRel := fun _ _ _ => False) : WRel := fun x y w =>
  a x y w ∨ ((∀ x y w, ¬ a x y w) ∧ ifEmpty x y w)

/-- nisaba/scripts/utils/file.py:49-52 `StringFile`. -/
def stringFile (rows : List Rule) : WRel := onEmpty (ofTable rows)

/-- nisaba/scripts/utils/file.py:55-57 `QuesSafe`. -/
def quesSafe (a : WRel) : WRel := ques (onEmpty a (eps 0))

/-- `pynini.union` of several transducers. -/
def unions (l : List WRel) : WRel := fun x y w => ∃ a ∈ l, a x y w

end WRel

open WRel

/-- U+02D8, nisaba/scripts/brahmic/iso.py:113. -/
def breve : Nat := nat_lit 728
/-- `'-'`, nisaba/scripts/brahmic/iso.py:110. -/
def dash : Nat := nat_lit 45
/-- `'.'`, nisaba/scripts/brahmic/iso.py:111. -/
def dot : Nat := nat_lit 46

/-- nisaba/scripts/brahmic/iso.py:57-139 `brahmic_to_iso` before `.star`.  The tables of inherent
vowels and viramas have one column, so their transducers are acceptors. -/
def isoUnits (d : BrahmicData) : WRel :=
  let coreConsonant := stringFile d.consonant
  let inherentVowel := Lang.inputStringFile d.inherent
  let vowelSign := stringFile d.vowelSign
  let vowel := stringFile d.vowel
  let vowelLengthSign := stringFile d.vowelLength
  let coda := stringFile d.coda
  let deadConsonant := stringFile d.deadConsonant
  let standalone := stringFile d.standalone
  let subjoinedConsonant := stringFile d.subjoined
  let virama := Lang.inputStringFile d.virama
  let commonSymbol := stringFile Data.commonSymbol
  let insInherent := insert inherentVowel
  let insDash := insert (fun s => s = [dash])
  let insDot := insert (fun s => s = [dot])
  let delVirama := delete virama
  let viramaMark := cross virama [breve]
  let lowPriorityEpsilon := eps 1
  let veryLowPriorityEpsilon := eps 2
  let consonant := cat coreConsonant (quesSafe subjoinedConsonant)
  unions [
    cat consonant vowelSign,
    cat (cat consonant insInherent) lowPriorityEpsilon,
    cat (cat consonant delVirama) lowPriorityEpsilon,
    cat vowel lowPriorityEpsilon,
    cat coda lowPriorityEpsilon,
    deadConsonant,
    vowelLengthSign,
    cat standalone lowPriorityEpsilon,
    cat (cat (cat insDash vowelSign) (Star (cat insDot vowel))) lowPriorityEpsilon,
    cat viramaMark veryLowPriorityEpsilon,
    commonSymbol,
    cat (cat vowel (plus (cat insDot vowel))) lowPriorityEpsilon,
    cat (cat consonant vowelSign) (plus (cat insDot vowel)),
    cat (cat consonant delVirama) (plus (cat insDot vowel)),
    cat (cat consonant insInherent) (plus (cat insDot vowel))]

/-- nisaba/scripts/brahmic/iso.py:57-139 `brahmic_to_iso` (`optimize` keeps the relation). -/
def brahmicToIso (d : BrahmicData) : WRel := Star (isoUnits d)

/-- nisaba/scripts/brahmic/iso.py:142-171 `_script_fsts`, the first component `FROM_<script>`;
`nfc` is the relation of the NFC grammar of the script. -/
def fromScript (d : BrahmicData) (nfc : Rel) : WRel := comp (ofRel nfc) (brahmicToIso d)

/-- nisaba/scripts/brahmic/iso.py:142-171 `_script_fsts`, the second component `TO_<script>`. -/
def toScript (d : BrahmicData) (nfc : Rel) : WRel := comp (WRel.inv (brahmicToIso d)) (ofRel nfc)

end Nisaba
