import Verif.Model.Pynini
import Verif.Data.Scripts
/-!
# Model of nisaba/scripts/brahmic/wellformed.py
-/
namespace Nisaba

namespace Lang

/-- nisaba/scripts/utils/file.py:24-25 `EMPTY`: intersection of two different acceptors, which
accepts nothing. -/
def empty : Lang := fun _ => False

/-- nisaba/scripts/utils/file.py:26 `EPSILON`: `pynini.accep("")`. -/
def epsilon : Lang := fun s => s = []

/-- `pynini.union(a, b)` of acceptors. -/
def union (a b : Lang) : Lang := fun s => a s ∨ b s

/-- `a + b` of acceptors. -/
def cat (a b : Lang) : Lang := fun s => ∃ x y, s = x ++ y ∧ a x ∧ b y

/-- `a.ques`. -/
def ques (a : Lang) : Lang := fun s => s = [] ∨ a s

/-- `a.star`. -/
inductive Star (a : Lang) : Lang
  | nil : Star a []
  | cons {x y : Str} (h : a x) (k : Star a y) : Star a (x ++ y)

/-- nisaba/scripts/utils/file.py:45-47 `OnEmpty`.  The code tests whether the transducer has a
start state; the model tests whether it accepts anything. -/
def onEmpty (a : Lang) (ifEmpty : Lang := empty) : Lang :=
  fun s => a s ∨ ((∀ t, ¬ a t) ∧ ifEmpty s)

/-- nisaba/scripts/utils/file.py:50-53 `StringFile` followed by the projection and epsilon removal
of nisaba/scripts/brahmic/wellformed.py:38-41 `_input_string_file`. -/
def inputStringFile (rows : List Rule) : Lang := onEmpty (inputLang rows)

/-- nisaba/scripts/utils/file.py:56-58 `QuesSafe`. -/
def quesSafe (a : Lang) : Lang := ques (onEmpty a epsilon)

/-- nisaba/scripts/utils/file.py:61-63 `StarSafe`. -/
def starSafe (a : Lang) : Lang := Star (onEmpty a epsilon)

end Lang

open Lang

/-- nisaba/scripts/brahmic/wellformed.py:101 `consonant`. -/
def wfConsonant (d : BrahmicData) : Lang :=
  cat (inputStringFile d.consonant) (quesSafe (inputStringFile d.subjoined))

/-- nisaba/scripts/brahmic/wellformed.py:102 `cluster`. -/
def wfCluster (d : BrahmicData) : Lang :=
  cat (starSafe (cat (wfConsonant d)
        (union (inputStringFile d.virama) (inputStringFile d.preserve))))
      (wfConsonant d)

/-- nisaba/scripts/brahmic/wellformed.py:103 `cluster_and_virama`. -/
def wfClusterAndVirama (d : BrahmicData) : Lang :=
  cat (cat (wfCluster d) (inputStringFile d.virama)) (quesSafe (inputStringFile d.deadConsonant))

/-- nisaba/scripts/brahmic/wellformed.py:105-111 `cluster_with_vowel`. -/
def wfClusterWithVowel (d : BrahmicData) : Lang :=
  if d.noInherentVowel then cat (wfCluster d) (inputStringFile d.vowelSign)
  else cat (wfCluster d) (ques (inputStringFile d.vowelSign))

/-- nisaba/scripts/brahmic/wellformed.py:113-118 `cluster_or_vowel_with_coda`. -/
def wfClusterOrVowelWithCoda (d : BrahmicData) : Lang :=
  cat (union (inputStringFile d.vowel) (wfClusterWithVowel d))
    (cat (cat (quesSafe (inputStringFile d.vowelLength)) (quesSafe (inputStringFile d.coda)))
      (quesSafe (inputStringFile d.deadConsonant)))

/-- nisaba/scripts/brahmic/wellformed.py:119-122 `akshara`. -/
def wfAkshara (d : BrahmicData) : Lang :=
  union (wfClusterOrVowelWithCoda d) (wfClusterAndVirama d)

/-- nisaba/scripts/brahmic/wellformed.py:44-123 `accept_well_formed`.  The language of the exported
acceptor (`optimize` does not change it). -/
def wellFormed (d : BrahmicData) : Lang :=
  starSafe (union (union (wfAkshara d) (inputStringFile d.standalone)) (inputStringFile d.accept))

end Nisaba
