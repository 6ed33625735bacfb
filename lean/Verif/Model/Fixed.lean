import Verif.Model.Iso
/-!
# Model of nisaba/scripts/brahmic/fixed.py

The fixed rule romanization: ASCII key sequences are rewritten to ISO 15919, which is converted to
the script.  Only Malayalam has such rules (nisaba/scripts/brahmic/util.py:98
`FIXED_RULE_SCRIPTS`).  This is the `utf8` token type; byte mode is in ByteGrammars.
-/
namespace Nisaba

open WRel

/-- nisaba/scripts/brahmic/fixed.py:52 `_ASCII_INPUT_CHARS`: Python's `string.printable` (the ASCII
characters 9-13 and 32-126) without the brackets.  How `pynini` reads a lone backslash as a string
is not modelled. -/
def asciiInput (c : Nat) : Prop :=
  ((9 ≤ c ∧ c ≤ 13) ∨ (32 ≤ c ∧ c ≤ 126)) ∧ c ≠ 0x5B ∧ c ≠ 0x5D

/-- nisaba/scripts/brahmic/fixed.py:58-59: the characters of both columns of the rule file, the ASCII
characters, and the joiners (nisaba/scripts/utils/char.py:78-91 `derive_sigma`). -/
def fixedSigma (rules : List Rule) : Nat → Prop := fun c =>
  c ∈ bothChars rules ∨ asciiInput c ∨ c ∈ joiners

/-- nisaba/scripts/brahmic/fixed.py:55-61 `_fixed_rule_fst`, from the rules of the file. -/
def fixedRuleFst (rules : List Rule) : Rel := fstFromCascadingRules rules (fixedSigma rules)

/-- nisaba/scripts/brahmic/fixed.py:64-66 `_ascii_acceptor`. -/
def asciiAcceptor : Rel := Rel.sigmaStar asciiInput

/-- nisaba/scripts/brahmic/fixed.py:76-78: the exported grammar of a script; `nfc` is the NFC
grammar inside `TO_<script>`. -/
def fixedFst (rules : List Rule) (d : BrahmicData) (nfc : Rel) : WRel :=
  comp (ofRel (Rel.comp asciiAcceptor (fixedRuleFst rules))) (toScript d nfc)

end Nisaba
