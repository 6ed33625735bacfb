import Verif.Model.Rule
import Verif.Model.Acceptor
import Verif.Data.Abjad
/-!
# nisaba/scripts/abjad_alphabet

The grammars of the library in `utf8` token mode.  Strings are lists of code points.
-/
namespace Nisaba.Abjad
open Nisaba

/-- Characters of a two-column table. -/
def tableChars (rows : List Rule) : List Nat := rows.flatMap fun p => p.1 ++ p.2

/-- `string.printable` without `[` and `]`: the ASCII characters 9-13 and 32-126. -/
def printable (c : Nat) : Prop := ((9 ≤ c ∧ c ≤ 13) ∨ (32 ≤ c ∧ c ≤ 126)) ∧ c ≠ 0x5B ∧ c ≠ 0x5D

/-- nisaba/scripts/abjad_alphabet/util.py:33-50 `sigma_from_common_data_files` and
nisaba/scripts/utils/char.py:78-92 `derive_sigma`: the characters of the listed data files, the
printable ASCII characters without brackets, and the three joiners. -/
def sigma (c : Nat) : Prop :=
  c ∈ tableChars Data.arabNfc ∨ c ∈ tableChars Data.arabPresentationForms ∨
  c ∈ tableChars Data.arabReversibleRoman ∨
  (∃ l ∈ Data.abjadLangs, c ∈ tableChars l.readingNorm ∨ c ∈ tableChars l.visualNorm ∨
    c ∈ tableChars l.finalIsolated ∨ c ∈ tableChars l.isolated ∨ c ∈ tableChars l.nonfinal) ∨
  printable c ∨ c = ZWNJ ∨ c = ZWJ ∨ c = ZWS

/-- nisaba/scripts/abjad_alphabet/nfc.py:36-45: `ARAB` of the NFC archive. -/
def nfcFst (σ : Nat → Prop) : Option Rel := fstFromRules Data.arabNfc σ

/-- nisaba/scripts/abjad_alphabet/reading_norm.py:43-53. -/
def readingNormFst (l : AbjadData) (σ : Nat → Prop) : Option Rel := fstFromRules l.readingNorm σ

/-- nisaba/scripts/abjad_alphabet/visual_norm_common.py:22-24 `script_common_fsts`: one transducer per
file. -/
def fstsFromFiles (σ : Nat → Prop) : List (List Rule) → Option (List Rel)
  | [] => some []
  | rules :: files =>
    match fstFromRules rules σ, fstsFromFiles σ files with
    | some R, some Rs => some (R :: Rs)
    | _, _ => none

/-- nisaba/scripts/abjad_alphabet/visual_norm_common.py:22-24 `script_common_fsts`, with the prefix
`('presentation_forms',)` of visual_norm.py:81-82. -/
def scriptCommonFsts (σ : Nat → Prop) : Option (List Rel) :=
  fstsFromFiles σ [Data.arabPresentationForms, Data.arabNfc, Data.arabVisualNorm]

/-- `sigma` as an acceptor. -/
def sigmaLang (σ : Nat → Prop) : Lang := fun x => ∃ c, σ c ∧ x = [c]

/-- nisaba/scripts/abjad_alphabet/visual_norm.py:51-53 `nonfinal_rewrite`.
Here and below an empty table stands for the rule `EPSILON`, which rewrites the empty string to the
empty string and so changes nothing; it is modelled by having no rule. -/
def nonfinalRewrite (rows : List Rule) (σ : Nat → Prop) : Rel :=
  Rewrite (Rel.stringMap rows) σ ⟨fun _ => True, startsIn (sigmaLang σ)⟩

/-- nisaba/scripts/abjad_alphabet/visual_norm.py:55-59 `final_rewrite`; `[EOS]` on the right. -/
def finalRewrite (rows : List Rule) (σ : Nat → Prop) : Rel :=
  Rewrite (Rel.stringMap rows) σ ⟨endsIn (sigmaLang σ), fun rest => rest = []⟩

/-- nisaba/scripts/abjad_alphabet/visual_norm.py:61-65 `isolated_rewrite`; `[BOS]` on the left, `[EOS]`
on the right. -/
def isolatedRewrite (rows : List Rule) (σ : Nat → Prop) : Rel :=
  Rewrite (Rel.stringMap rows) σ ⟨fun out => out = [], fun rest => rest = []⟩

/-- nisaba/scripts/abjad_alphabet/visual_norm.py:46-72 `lang_fsts`. -/
def langFsts (l : AbjadData) (σ : Nat → Prop) : Option (List Rel) :=
  match fstFromRules l.visualNorm σ with
  | none => none
  | some anywhere =>
    some [anywhere, nonfinalRewrite l.nonfinal σ, finalRewrite l.finalIsolated σ,
      isolatedRewrite (l.finalIsolated ++ l.isolated) σ]

/-- `rewrite.ComposeFsts(common_fsts + per_lang_fsts)`; `none` when one of the rule files was
rejected. -/
def composeAll : Option (List Rel) → Option (List Rel) → Option Rel
  | some common, some lang => some (composeRels (fun _ _ => False) (common ++ lang))
  | _, _ => none

/-- nisaba/scripts/abjad_alphabet/visual_norm.py:75-84 `generator_main`. -/
def visualNormFst (l : AbjadData) (σ : Nat → Prop) : Option Rel :=
  composeAll (scriptCommonFsts σ) (langFsts l σ)

/-! ### Reversible romanization -/

/-- `file.StringFile(roman_tsv).star` -/
inductive Star (a : Rel) : Rel
  | nil : Star a [] []
  | cons {x₁ x₂ y₁ y₂ : Str} (h : a x₁ y₁) (k : Star a x₂ y₂) : Star a (x₁ ++ x₂) (y₁ ++ y₂)

/-- nisaba/scripts/abjad_alphabet/reversible_roman.py:44-45 `roman`. -/
def romanFst : Rel := Star (Rel.stringMap Data.arabReversibleRoman)

/-- nisaba/scripts/abjad_alphabet/reversible_roman.py:49 `FROM_ARAB`. -/
def fromArab (σ : Nat → Prop) : Option Rel := (nfcFst σ).map fun n => Rel.comp n romanFst

/-- nisaba/scripts/abjad_alphabet/reversible_roman.py:50 `TO_ARAB`. -/
def toArab : Rel := Rel.inv romanFst

/-! ### nisaba/scripts/abjad_alphabet/__init__.py -/

/-- nisaba/scripts/utils/far.py:42-63 `FstWrapper.ApplyOnText` in UTF-8 mode: the result, or
`FstInputError` when the transducer has no output.  The archives the API loads are those in byte
mode; the model uses the UTF-8 ones, which agree with them (C97). -/
def applyFst (R : Rel) (text : Str) : NormResult → Prop
  | .ok t => R text t
  | .fstInputError => ∀ t, ¬ R text t
  | _ => False

/-- nisaba/scripts/abjad_alphabet/__init__.py:98-100 `Normalizer.ApplyOnWord`. -/
def normalizerWord (nfc vn : Rel) (word : Str) (r : NormResult) : Prop :=
  ∃ r₁, applyFst nfc word r₁ ∧ match r₁ with
    | .ok t => applyFst vn t r
    | e => r = e

/-- nisaba/scripts/abjad_alphabet/__init__.py:96 and 102-104 `Normalizer.ApplyOnText`, which is written as
in nisaba/scripts/brahmic/__init__.py. -/
def normalizerText (ignore : Str) (onWord : Str → NormResult) (line : Str) : Option NormResult :=
  acceptorApplyOnText ignore onWord line

end Nisaba.Abjad
