/-!
# Model of nisaba/scripts/utils/unicode_strings_util.py

The Unicode database of Python is a parameter.  The order in which `list(set(prefixes))` lists the
prefixes is a parameter as well.  Proto messages are records; reading and writing them, and
`_fill_missing_raw`, which assigns the results of `convert_item` to the fields, are left out.
-/
namespace Nisaba.UniStr

abbrev Name := List Nat

/-- `unicodedata`: `lookup` gives a string, of several characters for a named sequence, or raises
`KeyError` (`none`); `name` raises `ValueError` (`none`) for characters without a name. -/
structure Db where
  lookup : Name → Option (List Nat)
  name : Nat → Option Name
  isCc : Nat → Bool
  /-- The characters that `lstrip` removes. -/
  isSpace : Nat → Bool

inductive Err
  | value
  | type
  deriving DecidableEq, Repr

/-- unicode_strings_util.py:41 `(prefix + ' ' + suffix).lstrip()`. -/
def fullName (db : Db) (pre suffix : Name) : Name := (pre ++ 32 :: suffix).dropWhile db.isSpace

/-- unicode_strings_util.py:40-47, the loop over the prefixes.  `unicodedata.category` of several
characters is a `TypeError`, which is not caught. -/
def candidates (db : Db) (suffix : Name) : List Name → Except Err (List (Nat × Name))
  | [] => .ok []
  | pre :: rest =>
    let uname := fullName db pre suffix
    match db.lookup uname with
    | none => candidates db suffix rest
    | some [c] =>
      match candidates db suffix rest with
      | .error e => .error e
      | .ok l => .ok (if db.isCc c then l else (c, uname) :: l)
    | some _ => .error .type

/-- unicode_strings_util.py:27-54 `name_to_char`. -/
def nameToChar (db : Db) (prefixes : List Name) (suffix : Name) : Except Err (Nat × Name) :=
  match candidates db suffix (prefixes ++ [[]]) with
  | .error e => .error e
  | .ok [] => .error .value
  | .ok [c] => .ok c
  | .ok (_ :: _ :: _) => .error .value

/-- unicode_strings_util.py:71-72, the generator. -/
def namesLoop (db : Db) (prefixes : List Name) : List Name → Except Err (List (Nat × Name))
  | [] => .ok []
  | n :: ns =>
    match nameToChar db prefixes n with
    | .error e => .error e
    | .ok c =>
      match namesLoop db prefixes ns with
      | .error e => .error e
      | .ok cs => .ok (c :: cs)

/-- unicode_strings_util.py:57-73 `_names_to_string`; unpacking the empty `zip` is a `ValueError`. -/
def namesToString (db : Db) (prefixes names : List Name) : Except Err (List Nat) :=
  match namesLoop db prefixes names with
  | .error e => .error e
  | .ok [] => .error .value
  | .ok (c :: cs) => .ok ((c :: cs).map Prod.fst)

/-- unicode_strings_util.py:76-108 `proto_entries_to_string`. -/
def entriesToString (db : Db) (prefixes unames : List Name) (raw : List Nat) : Except Err (List Nat) :=
  if raw ≠ [] ∧ unames = [] then .ok raw
  else if raw.all (fun c => (db.name c).isSome) then
    match namesToString db prefixes unames with
    | .error e => .error e
    | .ok s => if raw ≠ [] ∧ s ≠ raw then .error .value else .ok s
  else .error .value

/-- unicode_strings.proto `UnicodeStrings.Item`, the fields used here. -/
structure Item where
  uname : List Name
  raw : List Nat
  toUname : List Name
  toRaw : List Nat

/-- unicode_strings_util.py:111-146 `convert_item`; `set` is `list(set(·))`. -/
def convertItem (db : Db) (set : List Name → List Name) (prefixes toPrefixes : List Name) (it : Item) :
    Except Err (List Nat × Option (List Nat)) :=
  if it.uname = [] ∧ it.raw = [] then .error .value
  else
    let prefixes := set prefixes
    let toPrefixes := set toPrefixes
    match entriesToString db prefixes it.uname it.raw with
    | .error e => .error e
    | .ok source =>
      if it.toUname = [] ∧ it.toRaw = [] then .ok (source, none)
      else
        let toPrefixes := if toPrefixes = [] then prefixes else toPrefixes
        match entriesToString db toPrefixes it.toUname it.toRaw with
        | .error e => .error e
        | .ok dest => .ok (source, some dest)

end Nisaba.UniStr
