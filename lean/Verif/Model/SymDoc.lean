import Verif.Model.Symbol
/-!
# Model of the description of a symbol inventory

nisaba/scripts/natural_translit/utils/symbol.py `Symbol.Inventory.description`, the text of
`str(inventory)`, and the two descriptions of a single symbol.
-/
namespace Nisaba.Symbol
open Nisaba.Inv

/-- Put a key in an ascending list. -/
def insertKey (k : Nat) : List Nat → List Nat
  | [] => [k]
  | j :: js => if k < j then k :: j :: js else if k = j then j :: js else j :: insertKey k js

/-- symbol.py:563 `sorted(self.index_dict)`: the keys of the dictionary, ascending. -/
def sortedKeys (d : Dict Nat) : List Nat := d.foldr (fun p ks => insertKey p.1 ks) []

/-- symbol.py:639-641 `index_lookup` with the default of `lookup` (symbol.py:615-637). -/
def SymInv.indexLookup (s : SymInv) (i : Nat) : Except PyErr Sym :=
  match s.inv.method "index_lookup" with
  | .error e => .error e
  | .ok () =>
  match s.inv.method "lookup" with
  | .error e => .error e
  | .ok () => .ok ((s.indexDict.get? i).getD unk)

/-- symbol.py:563-567: the loop over the indices.  `describe` is `sym.description(show_features)`,
which is a text that depends on the symbol and on its features. -/
def SymInv.describeAll (s : SymInv) (describe : Sym → List Nat) (showControl : Bool) :
    List Nat → Except PyErr (List Nat)
  | [] => .ok []
  | i :: is =>
    match s.indexLookup i with
    | .error e => .error e
    | .ok y =>
      match s.describeAll describe showControl is with
      | .error e => .error e
      | .ok t =>
        if !showControl && ctrl.contains y then .ok t
        else .ok (points "### " ++ describe y ++ points "\n" ++ t)

/-- symbol.py:557-568 `description` and inventory.py:77-79 `header`; `text` is the text of the
inventory. -/
def SymInv.description (s : SymInv) (text : List Nat) (describe : Sym → List Nat)
    (showControl : Bool) : Except PyErr (List Nat) :=
  match s.inv.method "header" with
  | .error e => .error e
  | .ok () =>
  match s.describeAll describe showControl (sortedKeys s.indexDict) with
  | .error e => .error e
  | .ok t => .ok (points "## Inventory: " ++ text ++ points "\n\n" ++ t)

/-- symbol.py:355-370 `Symbol.description` without features; `name` is the name of the symbol, which
the model of symbols leaves out. -/
def Sym.describe (name : Sym → List Nat) (y : Sym) : List Nat :=
  points "alias: " ++ points y.alias ++ points "  index: " ++ points (toString y.index)
    ++ (if y.raw = [] then [] else points "  raw: " ++ y.raw)
    ++ (if y.text = [] then [] else points "  text: " ++ y.text)
    ++ (if name y = points y.alias then [] else points "  name: " ++ name y)

/-- grapheme.py:146-152 `Grapheme.description` without features. -/
def Sym.describeGrapheme (name : Sym → List Nat) (y : Sym) : List Nat :=
  points "alias: " ++ points y.alias ++ points "\t"
    ++ (if y.raw = [] then points "text: " ++ y.text else points "raw: " ++ y.raw)
    ++ points "\tname: " ++ name y

/-- symbol.py:372-380 `Symbol.descriptions`. -/
def descriptions (title : List Nat) (ds : List (List Nat)) : List Nat :=
  (if title = [] then points "symbols" else title) ++ points ":\n  "
    ++ List.intercalate (points "\n  ") ds ++ points "\n"

end Nisaba.Symbol
