import Verif.Data.Spellout
import Verif.Model.NtInventory
import Verif.Model.ByteGrammars
/-!
# Model of nisaba/scripts/natural_translit/brahmic/en_spellout.py

Transducers are the relations they denote (see `Verif.Model.Pynini`).  The table of the spellings
is in `Verif.Data.Spellout`.
-/
namespace Nisaba.NT.Spellout

/-- en_spellout.py:27-42 `Language`. -/
inductive Language
  | bn | gu | hi | kn | ml | mr | or | pa | sd | si | ta | te | ur
  deriving DecidableEq, Repr

/-- en_spellout.py:46-59 `Script`. -/
inductive Script
  | beng | deva | gujr | guru | orya | sinh | knda | mlym | taml | telu | arab
  deriving DecidableEq, Repr

/-- en_spellout.py:66-96: position of the attribute `language_script` among the spellings of a
letter; `none` for a combination that `_EnLetterSpellOut` has no attribute for. -/
def column : Language → Script → Option Nat
  | .bn, .beng => some 0
  | .gu, .gujr => some 1
  | .hi, .deva => some 2
  | .kn, .knda => some 3
  | .ml, .mlym => some 4
  | .mr, .deva => some 5
  | .or, .orya => some 6
  | .pa, .guru => some 7
  | .sd, .arab => some 8
  | .si, .sinh => some 9
  | .ta, .taml => some 10
  | .te, .telu => some 11
  | .ur, .arab => some 12
  | _, _ => none

/-- en_spellout.py:99 `Separator.SPACE`. -/
def SPACE : Nat := 0x20

/-- en_spellout.py:100 `Separator.ZWNJ`. -/
def ZWNJ : Nat := 0x200C

/-- en_spellout.py:531-537 `_get_spellout`: `getattr` with the letter itself as the default. -/
def getSpellout (letter : Nat × List Str) (l : Language) (s : Script) : Str :=
  let spellout := match column l s with
    | some k => letter.2.getD k []
    | none => [letter.1]
  if s = .arab then spellout ++ [SPACE] else spellout

/-- en_spellout.py:559-564 `spellouts`: the letters and their spellings.  The letters of the table
are all different and none of them is the name of an attribute of `Inventory`, so that the inventory
keeps all of them in order. -/
def spellouts (l : Language) (s : Script) : List (Nat × Str) :=
  table.map fun letter => (letter.1, getSpellout letter l s)

/-- `str.upper` of a lower case ASCII letter. -/
def upper (c : Nat) : Nat := c - 32

/-- en_spellout.py:565-568 `fst`. -/
def spellFst (m : Mode) (sp : List (Nat × Str)) : Rel :=
  StarR (unionR (sp.map fun p =>
    cross (alt (str (m.labels [p.1])) (str (m.labels [upper p.1]))) (str (m.labels p.2))))

/-- en_spellout.py:544-551: `fl.FstList.accep(*sigma).union_star()` for the set of the characters of
the spellings. -/
def sigmaStar (m : Mode) (sp : List (Nat × Str)) : Lang :=
  Star (oneOf ((sp.flatMap fun p => p.2).map fun c => str (m.labels [c])))

/-- en_spellout.py:540-553 `_separated`: composition with the rule that deletes the separator before
the end of the text. -/
def separated (m : Mode) (r : Rel) (sp : List (Nat × Str)) (sep : Nat) : Rel :=
  Rel.comp r (RewriteIn (cross (str (m.labels [sep])) (str [])) (sigmaStar m sp)
    ⟨fun _ => True, fun rest => rest = []⟩)

/-- en_spellout.py:556-573 `speller` in the given token type. -/
def speller (m : Mode) (l : Language) (s : Script) : Rel :=
  let sp := spellouts l s
  let fst := spellFst m sp
  if s = .arab then separated m fst sp SPACE
  else if s = .knda ∨ s = .mlym ∨ s = .telu then separated m fst sp ZWNJ
  else fst

/-- nisaba/scripts/natural_translit/deromanization/en_spellout.py:20-34 `_LANG_SCRIPTS`: the grammars
exported by `generator_main` (lines 37-46), in both token types. -/
def langScripts : List (Language × Script) := [
  (.bn, .beng), (.gu, .gujr), (.hi, .deva), (.kn, .knda), (.ml, .mlym), (.mr, .deva), (.or, .orya),
  (.pa, .guru), (.sd, .arab), (.si, .sinh), (.ta, .taml), (.te, .telu), (.ur, .arab)]

end Nisaba.NT.Spellout
