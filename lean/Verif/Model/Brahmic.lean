import Verif.Model.Rule
import Verif.Data.Scripts
/-!
# nisaba/scripts/brahmic: alphabets, NFC and visual normalization
-/
namespace Nisaba

/-- Characters of the left column of a table. -/
def inputChars (rows : List Rule) : List Nat := rows.flatMap fun p => p.1

/-- Characters of both columns of a table. -/
def bothChars (rows : List Rule) : List Nat := rows.flatMap fun p => p.1 ++ p.2

/-- nisaba/scripts/brahmic/char_util.py:28-47 `script_chars`. -/
def scriptChars (d : BrahmicData) : List Nat :=
  inputChars d.accept ++ inputChars d.coda ++ inputChars d.consonant ++
  inputChars d.deadConsonant ++ inputChars d.standalone ++ inputChars d.subjoined ++
  inputChars d.virama ++ inputChars d.vowel ++ inputChars d.vowelLength ++
  inputChars d.vowelSign ++
  bothChars d.nfc ++ bothChars d.readingNorm ++ bothChars d.visualRewrite

/-- The joiners: nisaba/scripts/utils/char.py:25-27. -/
def joiners : List Nat := [ZWNJ, ZWJ, ZWS]

/-- The UTF-8-mode alphabet of a script: sigma.py:33-35 and utils/char.py:78-91 `derive_sigma`. -/
def sigmaUtf8 (d : BrahmicData) : Nat → Prop := fun c => c ∈ scriptChars d ∨ c ∈ joiners

/-- nisaba/scripts/brahmic/nfc.py:43-48: the NFC grammar of one script. -/
def nfcFst (d : BrahmicData) (σ : Nat → Prop) : Option Rel := fstFromRules d.nfc σ

/-- nisaba/scripts/brahmic/nfc.py:41-49: the rules of all scripts, in the order of `SCRIPTS`. -/
def brahmicNfcRules : List Rule := Data.scripts.flatMap fun d => d.nfc

/-- nisaba/scripts/brahmic/nfc.py:52-54: the pan-Brahmic NFC grammar. -/
def brahmicNfcFst (σ : Nat → Prop) : Option Rel := fstFromRules brahmicNfcRules σ

/-- nisaba/scripts/brahmic/nfc.py:52: union of the alphabets of all scripts. -/
def brahmicSigma : Nat → Prop := fun c => ∃ d ∈ Data.scripts, sigmaUtf8 d c

/-! ## Visual normalization -/

/-- nisaba/scripts/brahmic/char_util.py:62-70 `mark_chars`, as a predicate (the code uses a set;
`d.marks` lists the characters of the script with general category Mn). -/
def markChar (d : BrahmicData) (c : Nat) : Prop := c ∈ joiners ∨ c ∈ d.marks

/-- nisaba/scripts/brahmic/char_util.py:57: `Rewrite(pynutil.delete(c), sigma, left=c)`. -/
def dedupChar (σ : Nat → Prop) (c : Nat) : Rel :=
  Rewrite (Rel.stringMap [([c], [])]) σ ⟨endsIn (fun x => x = [c]), fun _ => True⟩

/-- nisaba/scripts/brahmic/char_util.py:55-59 `_dedup_chars`.  The argument lists the elements of
the Python set in iteration order.  `ComposeFsts` of no machine is the empty relation. -/
def dedupChars (σ : Nat → Prop) (order : List Nat) : Rel :=
  composeRels (fun _ _ => False) (order.map (dedupChar σ))

/-- A code point of the generated symbols `[VIRAMA,ZWNJ]`, `[ZWJ,VIRAMA]`, `[VIRAMA,ZWJ]`:
`tools/gen_tables.py` numbers them from 0x110000, above all Unicode code points. -/
def generated (c : Nat) : Prop := 0x110000 ≤ c

/-- nisaba/scripts/brahmic/visual_norm.py:79-80 `intermediate_sigma`. -/
def intermediateSigma (σ : Nat → Prop) : Nat → Prop := fun c => generated c ∨ σ c

/-- nisaba/scripts/brahmic/visual_norm.py:72-73 `consonant`. -/
def consonantLang (d : BrahmicData) : Lang := inputLang d.consonant

/-- nisaba/scripts/brahmic/visual_norm.py:48-83 `core_visual_norm_fsts`.
`none` is the `ValueError` of the rule compiler. -/
def coreVisualNormFsts (d : BrahmicData) (σ : Nat → Prop) : Option (List Rel) :=
  match fstFromRules d.visualRewrite σ with
  | none => none
  | some rewriteFst =>
    let σ' := intermediateSigma σ
    let markPreserve := Rewrite (Rel.stringMap d.preserve) σ'
      ⟨endsIn (consonantLang d), startsIn (consonantLang d)⟩
    let cleanJoiner := Rewrite (Rel.stringMap (joiners.map fun c => ([c], []))) σ'
    let reinstate := Rewrite (Rel.inv (Rel.stringMap d.preserve)) σ'
    some [rewriteFst, markPreserve, cleanJoiner, reinstate, Rel.sigmaStar σ]

/-- nisaba/scripts/brahmic/visual_norm.py:97-114: visual normalization of a script.  `order` is the
iteration order of the set of mark characters. -/
def visualNormFst (d : BrahmicData) (σ : Nat → Prop) (order : List Nat) : Option Rel :=
  match nfcFst d σ, coreVisualNormFsts d σ with
  | some nfc, some core => some (composeRels (fun _ _ => False) ([nfc, dedupChars σ order] ++ core))
  | _, _ => none

/-- nisaba/scripts/brahmic/visual_norm.py:116-128: visual normalization of a language, with the
tables `before_consonant.tsv` and `after_consonant.tsv`. -/
def visualNormLangFst (d : BrahmicData) (before after : List Rule) (σ : Nat → Prop)
    (order : List Nat) : Option Rel :=
  match visualNormFst d σ order with
  | none => none
  | some scriptFst =>
    some (composeRels (fun _ _ => False)
      [scriptFst,
       Rewrite (Rel.stringMap before) σ ⟨fun _ => True, startsIn (consonantLang d)⟩,
       Rewrite (Rel.stringMap after) σ ⟨endsIn (consonantLang d), fun _ => True⟩])

/-! Executable forms. -/

/-- Collapses every run of a character of `M` to one occurrence. -/
def collapse (M : List Nat) : Str → Str
  | [] => []
  | [a] => [a]
  | a :: b :: s =>
    bif Nat.beq a b && M.any (Nat.beq a) then collapse M (b :: s) else a :: collapse M (b :: s)

/-- Text ends in a row of the table. -/
def endsInB (rows : List Rule) (out : Str) : Bool := rows.any fun p => isPre p.1.reverse out.reverse

/-- Text starts with a row of the table. -/
def startsInB (rows : List Rule) (rest : Str) : Bool := rows.any fun p => isPre p.1 rest

/-- Contexts of `mark_preserve`. -/
def consCtx (d : BrahmicData) : BCtx := ⟨endsInB d.consonant, startsInB d.consonant⟩

def isJoiner (c : Nat) : Bool := joiners.any (Nat.beq c)

/-- Inverse of a two-column table. -/
def invRows (rows : List Rule) : List Rule := rows.map fun p => (p.2, p.1)

/-- The part of visual normalization after NFC and de-duplication. -/
def coreVisual (d : BrahmicData) (s : Str) : Str :=
  let a := applyRules d.visualRewrite s
  let b := scanC (consCtx d) d.preserve [] 0 a
  let c := b.filter fun c => !isJoiner c
  scan (invRows d.preserve) 0 c

/-- Executable visual normalization. -/
def visualNorm (d : BrahmicData) (s : Str) : Str :=
  coreVisual d (collapse (joiners ++ d.marks) (applyRules d.nfc s))

/-- Executable visual normalization of a language. -/
def visualNormLang (d : BrahmicData) (before after : List Rule) (s : Str) : Str :=
  let a := visualNorm d s
  let b := scanC ⟨fun _ => true, startsInB d.consonant⟩ before [] 0 a
  scanC ⟨endsInB d.consonant, fun _ => true⟩ after [] 0 b

end Nisaba
