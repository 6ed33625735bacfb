import Verif.Model.Brahmic
import Verif.Model.Utf8
/-!
# Grammars compiled in byte mode

`nfc.py:37-38` and `visual_norm.py:97` compile the same tables under
`pynini.default_token_type('byte')` as well: every string of a table, and every text, is then the
list of its UTF-8 bytes, while a generated symbol such as `[ZWJ,VIRAMA]` stays one label.
-/
namespace Nisaba

/-- UTF-8 bytes of a text: `str.encode('utf8')`. -/
def utf8 (s : Str) : Str := s.flatMap Utf8.encodeRaw

/-- Labels of one character in byte mode: its UTF-8 bytes, or the label itself for a generated
symbol. -/
def encChar (c : Nat) : Str := if 0x110000 ≤ c then [c] else Utf8.encodeRaw c

/-- Labels of a text in byte mode. -/
def encText (s : Str) : Str := s.flatMap encChar

/-- A table compiled in byte mode. -/
def encRules (rows : List Rule) : List Rule := rows.map fun p => (encText p.1, encText p.2)

/-- `byte.BYTE` of `pynini.lib`, the byte-mode alphabet returned by
nisaba/scripts/brahmic/util.py `OpenSigma`: the labels 1 – 255. -/
def byteSigma (b : Nat) : Prop := 1 ≤ b ∧ b ≤ 255

/-- The characters that can occur in a byte-mode text: scalar values other than NUL, which is the
epsilon label. -/
def textChar (c : Nat) : Prop := Utf8.isScalar c = true ∧ c ≠ 0

/-- nisaba/scripts/utils/rule.py:131-144 `fst_from_rules` in byte mode.  The rules are partitioned
as Python strings, so the sets are the same as in UTF-8 mode; only `pynini.string_map` and `sigma`
differ. -/
def byteFstFromRules (rules : List Rule) : Option Rel :=
  match partitionUnordered rules with
  | .ok sets => some (rewriteAndCompose (sets.map encRules) byteSigma)
  | _ => none

/-- nisaba/scripts/brahmic/char_util.py:57 in byte mode. -/
def byteDedupChar (c : Nat) : Rel :=
  Rewrite (Rel.stringMap [(encChar c, [])]) byteSigma ⟨endsIn (fun x => x = encChar c), fun _ => True⟩

/-- nisaba/scripts/brahmic/char_util.py:55-59 `_dedup_chars` in byte mode. -/
def byteDedupChars (order : List Nat) : Rel :=
  composeRels (fun _ _ => False) (order.map byteDedupChar)

/-- nisaba/scripts/brahmic/visual_norm.py:72 `consonant` in byte mode. -/
def byteConsonantLang (d : BrahmicData) : Lang := inputLang (encRules d.consonant)

/-- nisaba/scripts/brahmic/visual_norm.py:48-83 `core_visual_norm_fsts` in byte mode. -/
def byteCoreVisualNormFsts (d : BrahmicData) : Option (List Rel) :=
  match byteFstFromRules d.visualRewrite with
  | none => none
  | some rewriteFst =>
    let σ' := intermediateSigma byteSigma
    let markPreserve := Rewrite (Rel.stringMap (encRules d.preserve)) σ'
      ⟨endsIn (byteConsonantLang d), startsIn (byteConsonantLang d)⟩
    let cleanJoiner := Rewrite (Rel.stringMap (encRules (joiners.map fun c => ([c], [])))) σ'
    let reinstate := Rewrite (Rel.inv (Rel.stringMap (encRules d.preserve))) σ'
    some [rewriteFst, markPreserve, cleanJoiner, reinstate, Rel.sigmaStar byteSigma]

/-- nisaba/scripts/brahmic/visual_norm.py:97-114 in byte mode. -/
def byteVisualNormFst (d : BrahmicData) (order : List Nat) : Option Rel :=
  match byteFstFromRules d.nfc, byteCoreVisualNormFsts d with
  | some nfc, some core =>
    some (composeRels (fun _ _ => False) ([nfc, byteDedupChars order] ++ core))
  | _, _ => none

end Nisaba
