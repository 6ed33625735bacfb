import Verif.Model.Brahmic
import Verif.Model.Abjad
/-!
# Reading normalization

nisaba/scripts/brahmic/reading_norm.py and nisaba/scripts/brahmic/util.py:100-106.  The grammar of
the abjad languages is `Abjad.readingNormFst`.
-/
namespace Nisaba

/-- nisaba/scripts/brahmic/reading_norm.py:46-51 `_reading_norm_fst`: the rewriter of the rule file,
or, if there is no file (`none`), `Rewrite('', sigma)`.  Simplification: rewriting the empty string
to itself is written as the identity on strings over the alphabet. -/
def readingNormFile (file : Option (List Rule)) (σ : Nat → Prop) : Option Rel :=
  match file with
  | some rules => fstFromRules rules σ
  | none => some (Rel.sigmaStar σ)

/-- A grammar of reading normalization: the script, its rule file, and for a language the rule file
of the language. -/
structure ReadingGrammar where
  name : String
  script : BrahmicData
  scriptFile : Option (List Rule)
  lang : Option (Option (List Rule))

/-- nisaba/scripts/brahmic/reading_norm.py:54-73 `generator_main`; `none` is the `ValueError` of the
rule compiler. -/
def ReadingGrammar.fst (g : ReadingGrammar) (σ : Nat → Prop) : Option Rel :=
  match readingNormFile g.scriptFile σ, g.lang with
  | some script, none => some (composeRels (fun _ _ => False) [script])
  | some script, some langFile =>
    match readingNormFile langFile σ with
    | some lang => some (composeRels (fun _ _ => False) [script, lang])
    | none => none
  | none, _ => none

/-- nisaba/scripts/brahmic/util.py:100-106: Hindi.  data/Deva has no file `reading_norm.textproto`,
data/Deva/hi has one. -/
def readingHi : ReadingGrammar := ⟨"hi", Data.deva, none, some (some Data.devaHiReadingNorm)⟩
/-- nisaba/scripts/brahmic/util.py:100-106, data/Beng/reading_norm.textproto. -/
def readingBeng : ReadingGrammar := ⟨"Beng", Data.beng, some Data.beng.readingNorm, none⟩
/-- nisaba/scripts/brahmic/util.py:100-106, data/Lepc/reading_norm.textproto. -/
def readingLepc : ReadingGrammar := ⟨"Lepc", Data.lepc, some Data.lepc.readingNorm, none⟩
/-- nisaba/scripts/brahmic/util.py:100-106, data/Mlym/reading_norm.textproto. -/
def readingMlym : ReadingGrammar := ⟨"Mlym", Data.mlym, some Data.mlym.readingNorm, none⟩

/-- nisaba/scripts/brahmic/util.py:100-106 `READING_NORM_LANGS`. -/
def readingGrammars : List ReadingGrammar := [readingHi, readingBeng, readingLepc, readingMlym]

/-- The rules that a grammar applies, in one list: at most one of its files exists. -/
def ReadingGrammar.rules (g : ReadingGrammar) : List Rule :=
  match g.scriptFile, g.lang with
  | some rs, _ => rs
  | none, some (some rs) => rs
  | none, _ => []

end Nisaba
