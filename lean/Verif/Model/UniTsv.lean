import Verif.Model.UnicodeStrings
import Verif.Model.NtFst
/-!
# Model of nisaba/scripts/utils/unicode_strings_to_tsv.py, of letter_languages.py, and of the functions of
unicode_strings_util.py that change messages

Texts are lists of code points.  Reading the text format and the flags are left out.
-/
namespace Nisaba.UniTsv

open Nisaba.UniStr

/-- unicode_strings.proto `UnicodeStrings`. -/
structure Message where
  prefixes : List Name
  toPrefixes : List Name
  items : List Item

/-- How a run ends: normally, with the `ValueError` for the item with an index, or with another error. -/
inductive Outcome
  | done
  | lookupFailed (index : Nat)
  | typeError
  deriving DecidableEq, Repr

/-- unicode_strings_to_tsv.py:75-77. -/
def header : List Nat := a!"# Auto-generated using 'nisaba/scripts/utils/unicode_strings_to_tsv'" ++ [10]

/-- unicode_strings_to_tsv.py:87-90; `None` and the empty string are both false. -/
def line (s : List Nat) : Option (List Nat) → List Nat
  | some (c :: cs) => s ++ [9] ++ (c :: cs) ++ [10]
  | _ => s ++ [10]

/-- unicode_strings_to_tsv.py:78-90, the loop from an index on; the file so far and the outcome. -/
def loop (db : Db) (set : List Name → List Name) (m : Message) (i : Nat) (file : List Nat) :
    List Item → List Nat × Outcome
  | [] => (file, .done)
  | it :: its =>
    match convertItem db set m.prefixes m.toPrefixes it with
    | .ok (s, d) => loop db set m (i + 1) (file ++ line s d) its
    | .error .value => (file, .lookupFailed i)
    | .error .type => (file, .typeError)

/-- unicode_strings_to_tsv.py:64-90 `_convert_data_proto_to_file`. -/
def convertFile (db : Db) (set : List Name → List Name) (m : Message) : List Nat × Outcome :=
  loop db set m 0 header m.items

/-- unicode_strings_util.py:165-168, one round of the loop.  Assigning `None` to the field of type string
`to_raw` is a `TypeError` of protobuf. -/
def fillItem (db : Db) (set : List Name → List Name) (m : Message) (it : Item) : Except Err Item :=
  match convertItem db set m.prefixes m.toPrefixes it with
  | .ok (s, some d) => .ok { it with raw := s, toRaw := d }
  | .ok (_, none) => .error .type
  | .error e => .error e

/-- The loop of both `_fill_missing_raw`. -/
def fillLoop {α : Type} (f : α → Except Err α) : List α → Except Err (List α)
  | [] => .ok []
  | a :: l =>
    match f a with
    | .error e => .error e
    | .ok b =>
      match fillLoop f l with
      | .error e => .error e
      | .ok bs => .ok (b :: bs)

/-- unicode_strings_util.py:148-168 `_fill_missing_raw`, the message after it. -/
def fill (db : Db) (set : List Name → List Name) (m : Message) : Except Err Message :=
  match fillLoop (fillItem db set m) m.items with
  | .error e => .error e
  | .ok its => .ok { m with items := its }

/-- letter_languages.proto `LetterLanguages.Item`: a letter and its languages. -/
structure Letter where
  letter : Item
  languages : List (List Nat)

/-- letter_languages.py:40-41, one round of the loop. -/
def fillLetter (db : Db) (set : List Name → List Name) (prefixes : List Name) (l : Letter) : Except Err Letter :=
  match convertItem db set prefixes [] l.letter with
  | .ok (s, _) => .ok { l with letter := { l.letter with raw := s } }
  | .error e => .error e

/-- letter_languages.py:25-41 `_fill_missing_raw`. -/
def fillLetters (db : Db) (set : List Name → List Name) (prefixes : List Name) (ls : List Letter) :
    Except Err (List Letter) := fillLoop (fillLetter db set prefixes) ls

end Nisaba.UniTsv
