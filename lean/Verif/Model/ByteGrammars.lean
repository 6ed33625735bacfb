import Verif.Model.ByteMode
import Verif.Model.Iso
import Verif.Model.Fixed
import Verif.Model.Reading
/-!
# More grammars compiled in byte mode

Every string of a table, and every text, is the list of its UTF-8 bytes (`encText`).  The archives
of the Python API are these.
-/
namespace Nisaba

/-- nisaba/scripts/brahmic/visual_norm.py:116-128 in byte mode. -/
def byteVisualNormLangFst (d : BrahmicData) (before after : List Rule) (order : List Nat) :
    Option Rel :=
  match byteVisualNormFst d order with
  | none => none
  | some scriptFst =>
    some (composeRels (fun _ _ => False)
      [scriptFst,
       Rewrite (Rel.stringMap (encRules before)) byteSigma
         ⟨fun _ => True, startsIn (byteConsonantLang d)⟩,
       Rewrite (Rel.stringMap (encRules after)) byteSigma
         ⟨endsIn (byteConsonantLang d), fun _ => True⟩])

section
open WRel

/-- nisaba/scripts/brahmic/iso.py:57-139 `brahmic_to_iso` in byte mode, before `.star`: the tables,
the symbols and the literals `-`, `.` and `˘` are byte strings. -/
def byteIsoUnits (d : BrahmicData) : WRel :=
  let coreConsonant := stringFile (encRules d.consonant)
  let inherentVowel := Lang.inputStringFile (encRules d.inherent)
  let vowelSign := stringFile (encRules d.vowelSign)
  let vowel := stringFile (encRules d.vowel)
  let vowelLengthSign := stringFile (encRules d.vowelLength)
  let coda := stringFile (encRules d.coda)
  let deadConsonant := stringFile (encRules d.deadConsonant)
  let standalone := stringFile (encRules d.standalone)
  let subjoinedConsonant := stringFile (encRules d.subjoined)
  let virama := Lang.inputStringFile (encRules d.virama)
  let commonSymbol := stringFile (encRules Data.commonSymbol)
  let insInherent := insert inherentVowel
  let insDash := insert (fun s => s = utf8 [dash])
  let insDot := insert (fun s => s = utf8 [dot])
  let delVirama := delete virama
  let viramaMark := cross virama (utf8 [breve])
  let lowPriorityEpsilon := eps 1
  let veryLowPriorityEpsilon := eps 2
  let consonant := cat coreConsonant (quesSafe subjoinedConsonant)
  unions [
    cat consonant vowelSign,
    cat (cat consonant insInherent) lowPriorityEpsilon,
    cat (cat consonant delVirama) lowPriorityEpsilon,
    cat vowel lowPriorityEpsilon,
    cat coda lowPriorityEpsilon,
    deadConsonant,
    vowelLengthSign,
    cat standalone lowPriorityEpsilon,
    cat (cat (cat insDash vowelSign) (Star (cat insDot vowel))) lowPriorityEpsilon,
    cat viramaMark veryLowPriorityEpsilon,
    commonSymbol,
    cat (cat vowel (plus (cat insDot vowel))) lowPriorityEpsilon,
    cat (cat consonant vowelSign) (plus (cat insDot vowel)),
    cat (cat consonant delVirama) (plus (cat insDot vowel)),
    cat (cat consonant insInherent) (plus (cat insDot vowel))]

/-- nisaba/scripts/brahmic/iso.py:57-139 `brahmic_to_iso` in byte mode. -/
def byteBrahmicToIso (d : BrahmicData) : WRel := Star (byteIsoUnits d)

/-- nisaba/scripts/brahmic/iso.py:142-171 `FROM_<script>` in byte mode; `nfc` is the byte-mode NFC
grammar. -/
def byteFromScript (d : BrahmicData) (nfc : Rel) : WRel := comp (ofRel nfc) (byteBrahmicToIso d)

/-- nisaba/scripts/brahmic/iso.py:142-171 `TO_<script>` in byte mode. -/
def byteToScript (d : BrahmicData) (nfc : Rel) : WRel :=
  comp (WRel.inv (byteBrahmicToIso d)) (ofRel nfc)

end

/-- nisaba/scripts/brahmic/reading_norm.py:46-51 in byte mode; the simplification of
`readingNormFile` applies here too. -/
def byteReadingNormFile (file : Option (List Rule)) : Option Rel :=
  match file with
  | some rules => byteFstFromRules rules
  | none => some (Rel.sigmaStar byteSigma)

/-- nisaba/scripts/brahmic/reading_norm.py:54-73 in byte mode. -/
def ReadingGrammar.byteFst (g : ReadingGrammar) : Option Rel :=
  match byteReadingNormFile g.scriptFile, g.lang with
  | some script, none => some (composeRels (fun _ _ => False) [script])
  | some script, some langFile =>
    match byteReadingNormFile langFile with
    | some lang => some (composeRels (fun _ _ => False) [script, lang])
    | none => none
  | none, _ => none

/-! ### Alphabets made of byte strings

nisaba/scripts/utils/char.py:78-92 `derive_sigma` builds the alphabet with the token type in force:
in byte mode it accepts the UTF-8 byte strings of the characters. -/

/-- `sigma.star` in byte mode: the UTF-8 bytes of the texts over `σ`. -/
def byteTexts (σ : Nat → Prop) : Lang := fun b => ∃ s, Over σ s ∧ b = encText s

/-- `sigma` as an acceptor in byte mode. -/
def byteSigmaLang (σ : Nat → Prop) : Lang := fun b => ∃ c, σ c ∧ b = encChar c

/-- `pynini.cdrewrite(τ, left, right, S)` where `S` need not be all strings over an alphabet
(nisaba/scripts/utils/rewrite.py:20-33 `Rewrite`): left-to-right obligatory rewriting of strings of
`S`, with results in `S`. -/
def RewriteIn (τ : Rel) (S : Lang) (C : Ctx := Ctx.free) : Rel := fun s t =>
  S s ∧ S t ∧ CDRewrite τ C [] s t

/-- nisaba/scripts/utils/rewrite.py:50-53 `RewriteAndComposeFsts` in byte mode, with an alphabet of
byte strings. -/
def byteRewriteAndCompose (sets : List (List Rule)) (σ : Nat → Prop) : Rel :=
  composeRels (fun s t => t = s ∧ byteTexts σ s)
    (sets.map fun s => RewriteIn (Rel.stringMap (encRules s)) (byteTexts σ))

/-- nisaba/scripts/utils/rule.py:131-144 `fst_from_rules` in byte mode, with an alphabet of byte
strings. -/
def byteFstFromRulesOver (rules : List Rule) (σ : Nat → Prop) : Option Rel :=
  match partitionUnordered rules with
  | .ok sets => some (byteRewriteAndCompose sets σ)
  | _ => none

/-- nisaba/scripts/brahmic/fixed.py:55-61 `_fixed_rule_fst` in byte mode. -/
def byteFixedRuleFst (rules : List Rule) : Rel :=
  byteRewriteAndCompose (rules.map fun r => [r]) (fixedSigma rules)

/-- nisaba/scripts/brahmic/fixed.py:64-66 `_ascii_acceptor` in byte mode. -/
def byteAsciiAcceptor : Rel := fun s t => t = s ∧ byteTexts asciiInput s

/-- nisaba/scripts/brahmic/fixed.py:76-78 in byte mode. -/
def byteFixedFst (rules : List Rule) (d : BrahmicData) (nfc : Rel) : WRel :=
  WRel.comp (WRel.ofRel (Rel.comp byteAsciiAcceptor (byteFixedRuleFst rules))) (byteToScript d nfc)

namespace Abjad

/-- nisaba/scripts/abjad_alphabet/nfc.py:36-45 in byte mode. -/
def byteNfcFst (σ : Nat → Prop) : Option Rel := byteFstFromRulesOver Data.arabNfc σ

/-- nisaba/scripts/abjad_alphabet/reading_norm.py:43-53 in byte mode. -/
def byteReadingNormFst (l : AbjadData) (σ : Nat → Prop) : Option Rel :=
  byteFstFromRulesOver l.readingNorm σ

/-- nisaba/scripts/abjad_alphabet/visual_norm_common.py:22-24 in byte mode. -/
def byteFstsFromFiles (σ : Nat → Prop) : List (List Rule) → Option (List Rel)
  | [] => some []
  | rules :: files =>
    match byteFstFromRulesOver rules σ, byteFstsFromFiles σ files with
    | some R, some Rs => some (R :: Rs)
    | _, _ => none

/-- nisaba/scripts/abjad_alphabet/visual_norm_common.py:22-24 in byte mode. -/
def byteScriptCommonFsts (σ : Nat → Prop) : Option (List Rel) :=
  byteFstsFromFiles σ [Data.arabPresentationForms, Data.arabNfc, Data.arabVisualNorm]

/-- nisaba/scripts/abjad_alphabet/visual_norm.py:51-53 in byte mode. -/
def byteNonfinalRewrite (rows : List Rule) (σ : Nat → Prop) : Rel :=
  RewriteIn (Rel.stringMap (encRules rows)) (byteTexts σ)
    ⟨fun _ => True, startsIn (byteSigmaLang σ)⟩

/-- nisaba/scripts/abjad_alphabet/visual_norm.py:55-59 in byte mode. -/
def byteFinalRewrite (rows : List Rule) (σ : Nat → Prop) : Rel :=
  RewriteIn (Rel.stringMap (encRules rows)) (byteTexts σ)
    ⟨endsIn (byteSigmaLang σ), fun rest => rest = []⟩

/-- nisaba/scripts/abjad_alphabet/visual_norm.py:61-65 in byte mode. -/
def byteIsolatedRewrite (rows : List Rule) (σ : Nat → Prop) : Rel :=
  RewriteIn (Rel.stringMap (encRules rows)) (byteTexts σ)
    ⟨fun out => out = [], fun rest => rest = []⟩

/-- nisaba/scripts/abjad_alphabet/visual_norm.py:46-72 in byte mode. -/
def byteLangFsts (l : AbjadData) (σ : Nat → Prop) : Option (List Rel) :=
  match byteFstFromRulesOver l.visualNorm σ with
  | none => none
  | some anywhere =>
    some [anywhere, byteNonfinalRewrite l.nonfinal σ, byteFinalRewrite l.finalIsolated σ,
      byteIsolatedRewrite (l.finalIsolated ++ l.isolated) σ]

/-- nisaba/scripts/abjad_alphabet/visual_norm.py:75-84 in byte mode. -/
def byteVisualNormFst (l : AbjadData) (σ : Nat → Prop) : Option Rel :=
  composeAll (byteScriptCommonFsts σ) (byteLangFsts l σ)

/-- nisaba/scripts/abjad_alphabet/reversible_roman.py:44-45 in byte mode. -/
def byteRomanFst : Rel := Star (Rel.stringMap (encRules Data.arabReversibleRoman))

/-- nisaba/scripts/abjad_alphabet/reversible_roman.py:49 `FROM_ARAB` in byte mode. -/
def byteFromArab (σ : Nat → Prop) : Option Rel :=
  (byteNfcFst σ).map fun n => Rel.comp n byteRomanFst

/-- nisaba/scripts/abjad_alphabet/reversible_roman.py:50 `TO_ARAB` in byte mode. -/
def byteToArab : Rel := Rel.inv byteRomanFst

end Abjad

end Nisaba
