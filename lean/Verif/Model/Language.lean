import Verif.Model.NtFst
/-!
# Model of the languages of phonological symbols

nisaba/scripts/natural_translit/phonology/features/language.py.  The table of languages of the
package `pycountry` is not part of the repository: it is a parameter, a list of entries in the order
of the package.
-/
namespace Nisaba.Language

/-- An entry of `pycountry.languages` as far as language.py:37-48 uses it. -/
structure Entry where
  alpha2 : Option Str
  alpha3 : Str
  name : Str
  deriving DecidableEq, Repr

/-- language.py:27-34 `Language`: alias, text and index. -/
structure LangFeat where
  alias : Str
  text : Str
  index : Nat
  deriving DecidableEq, Repr

/-- The `ValueError` of language.py:43 and the `AttributeError` of `language.name` in
language.py:46, where `pycountry.languages.get` found nothing and gave `None`. -/
inductive Err
  | valueError | attributeError
  deriving DecidableEq, Repr

/-- `str.lower` (language.py:45).  Simplified: only the letters of ASCII. -/
def lower (s : Str) : Str := s.map (fun c => if 65 ≤ c ∧ c ≤ 90 then c + 32 else c)

/-- language.py:39-41 `pycountry.languages.get` with language.py:47 `list(...).index`: the entry and
its place.  Keys are compared in lower case.  Simplified: the first entry with the code; the package
has no code twice. -/
def findIso (p : Entry → Bool) : List Entry → Nat → Option (Nat × Entry)
  | [], _ => none
  | e :: es, n => if p e then some (n, e) else findIso p es (n + 1)

/-- language.py:36-48 `Language.from_iso`. -/
def fromIso (db : List Entry) (code : Str) : Except Err LangFeat :=
  let found : Except Err (Option (Nat × Entry)) :=
    if code.length = 2 then .ok (findIso (fun e => e.alpha2.map lower == some (lower code)) db 0)
    else if code.length = 3 then .ok (findIso (fun e => lower e.alpha3 == lower code) db 0)
    else .error .valueError
  match found with
  | .error e => .error e
  | .ok none => .error .attributeError
  | .ok (some (n, e)) => .ok ⟨lower code, e.name, n⟩

/-- language.py:118: the unified inventory. -/
def xUni : LangFeat := ⟨a!"x_uni", a!"Unified Phonology", 8000⟩

/-- language.py:123: the Pan South Asian inventory. -/
def xPsa : LangFeat := ⟨a!"x_psa", a!"Pan South Asian", 9001⟩

end Nisaba.Language
