import Verif.Model.Inventory
/-!
# Model of the symbol inventories

nisaba/scripts/natural_translit/utils/symbol.py `Symbol.Inventory` and
nisaba/scripts/natural_translit/script/grapheme.py `Grapheme.Inventory`.

A symbol is a Python object: two symbols are equal only if they are the same object, which is what
`id` says.  Text is a list of code points, aliases are Lean strings.  Features, names and the field
`inventory` of a symbol are left out.
-/
namespace Nisaba.Symbol
open Nisaba.Inv

/-- symbol.py:282-344 `Symbol`; `cls` is its class (0 `Symbol`, 1 `Grapheme`, others are
subclasses), `id` its identity. -/
structure Sym where
  id : Nat
  cls : Nat
  alias : String
  text : List Nat
  raw : List Nat
  index : Nat
  deriving DecidableEq, Repr

/-- What an inventory can hold: symbols and other objects. -/
inductive Val
  | sym (s : Sym)
  | obj (n : Nat)
  deriving DecidableEq, Repr

/-- symbol.py:315-320 `ReservedIndex`. -/
def controlPrefix : Nat := 1000000
def graphemePrefix : Nat := 2000000
def undefinedPrefix : Nat := 9000000

/-- symbol.py:718-745 `_control_symbols`; their `raw` is empty.  U+200B surrounds the texts. -/
def ctrl : List Sym :=
  [("eps", 0x2130), ("unk", 0x2426), ("bos", 0x22B3), ("eos", 0x22B2), ("oos", 0x22BD),
   ("nor", 0x25CE), ("nos", 0x2A31)].zipIdx.map (fun p =>
    { id := p.2, cls := 0, alias := p.1.1, text := [0x200B, p.1.2, 0x200B], raw := [],
      index := controlPrefix + p.2 })

/-- `Symbol.CTRL.unk` and `Symbol.CTRL.nor`. -/
def unk : Sym :=
  { id := 1, cls := 0, alias := "unk", text := [0x200B, 0x2426, 0x200B], raw := [],
    index := controlPrefix + 1 }
def nor : Sym :=
  { id := 5, cls := 0, alias := "nor", text := [0x200B, 0x25CE, 0x200B], raw := [],
    index := controlPrefix + 5 }

/-- Which class the inventory is. -/
inductive Kind
  | base
  | grapheme
  deriving DecidableEq, Repr

/-- A Python dictionary: the newest entry of a key is the one that counts. -/
abbrev Dict (K : Type) := List (K × Sym)

def Dict.get? {K : Type} [DecidableEq K] (d : Dict K) (k : K) : Option Sym :=
  (d.find? (fun p => p.1 = k)).map (·.2)

/-- symbol.py:521-552 `Symbol.Inventory` and grapheme.py:169-186; `next` is the identity of the
next object, `atomics` is the inventory of phonological_symbol.py:81. -/
structure SymInv where
  kind : Kind
  inv : Inventory Val
  atomics : Inventory Val
  indexDict : Dict Nat
  rawDict : Dict (List Nat)
  textDict : Dict (List Nat)
  pre : Nat
  unknownCount : Nat
  next : Nat

/-- symbol.py:570-584 `_add_to_dicts`. -/
def SymInv.addToDicts (s : SymInv) (y : Sym) : SymInv :=
  { s with
    indexDict := (y.index, y) :: s.indexDict
    textDict := if y.text = [] then s.textDict else (y.text, y) :: s.textDict
    rawDict := if y.raw = [] then s.rawDict else (y.raw, y) :: s.rawDict }

/-- symbol.py:537-552 `Symbol.Inventory.__init__` (without symbols); `valid` says which values have
the item type.  The object number 0 stands for the inventory `Symbol.CTRL`. -/
def SymInv.new (kind : Kind) (valid : Val → Bool) (pre : Nat) : SymInv :=
  let fields := ["index_dict", "raw_dict", "text_dict", "prefix", "unknown_count"] ++
    (match kind with
     | .base => []
     | .grapheme => ["language", "atomics", "script"])
  ctrl.foldl SymInv.addToDicts
    { kind := kind, inv := ((Inventory.new valid fields).addSuppl "CTRL" (.obj 0)).1,
      atomics := Inventory.new (fun _ => true), indexDict := [], rawDict := [], textDict := [],
      pre := pre, unknownCount := 0, next := ctrl.length }

/-- symbol.py:586-593 `_add_symbol`. -/
def SymInv.addSymbol (s : SymInv) (y : Sym) : SymInv × Except PyErr Bool :=
  match s.inv.method "_add_symbol" with
  | .error e => (s, .error e)
  | .ok () =>
  match s.inv.addItem y.alias (.sym y) with
  | (i, .ok true) =>
    let s := { s with inv := i }
    match s.inv.method "_add_to_dicts" with
    | .error e => (s, .error e)
    | .ok () => (s.addToDicts y, .ok true)
  | (i, .ok false) => ({ s with inv := i }, .ok false)
  | (i, .error e) => ({ s with inv := i }, .error e)

/-- phonological_symbol.py:83-87 `_add_symbol_and_atomic`.  `Atomic.get_instance` makes a new object
with the same alias. -/
def SymInv.addSymbolAndAtomic (s : SymInv) (y : Sym) : SymInv × Except PyErr Bool :=
  match s.inv.method "_add_symbol_and_atomic" with
  | .error e => (s, .error e)
  | .ok () =>
  match s.addSymbol y with
  | (s, .ok true) =>
    let r := s.atomics.addItem y.alias (.sym { y with id := s.next })
    ({ s with atomics := r.1, next := s.next + 1 }, r.2)
  | (s, r) => (s, r)

/-- Code points of an ASCII string. -/
def points (a : String) : List Nat := a.toList.map Char.toNat

/-- symbol.py:653-654: `'from_unk_' + str(n)`. -/
def unkAlias (n : Nat) : String := "from_unk_" ++ toString n

/-- grapheme.py:126-130: `'u_' + hex(c)`. -/
def charAlias (c : Nat) : String := "u_0x" ++ String.ofList (Nat.toDigits 16 c)

/-- symbol.py:651-660 `raw_from_unknown` and grapheme.py:106-144, 229-231. -/
def SymInv.rawFromUnknown (s : SymInv) (c : Nat) : SymInv × Except PyErr Sym :=
  match s.inv.method "raw_from_unknown" with
  | .error e => (s, .error e)
  | .ok () =>
  match s.kind with
  | .base =>
    let n := s.unknownCount + 1
    let y : Sym :=
      { id := s.next, cls := 0, alias := unkAlias n,
        text := points ("<" ++ unkAlias n ++ "_") ++ [c] ++ points ">", raw := [c],
        index := s.pre + n }
    match { s with unknownCount := n, next := s.next + 1 }.addSymbol y with
    | (s, .error e) => (s, .error e)
    | (s, .ok _) => (s, .ok y)
  | .grapheme =>
    let y : Sym :=
      { id := s.next, cls := 1, alias := charAlias c, text := [c], raw := [c],
        index := graphemePrefix + c }
    match { s with next := s.next + 1 }.addSymbolAndAtomic y with
    | (s, .error e) => (s, .error e)
    | (s, .ok true) => (s, .ok y)
    | (s, .ok false) => (s, .ok nor)

/-- symbol.py:615-645 `lookup` with the default and `raw_lookup`. -/
def SymInv.rawLookup (s : SymInv) (r : List Nat) : Except PyErr Sym :=
  match s.inv.method "raw_lookup" with
  | .error e => .error e
  | .ok () =>
  match s.inv.method "lookup" with
  | .error e => .error e
  | .ok () => .ok ((s.rawDict.get? r).getD unk)

/-- One round of the list comprehension of symbol.py:687-692. -/
def SymInv.rawSymbol (s : SymInv) (c : Nat) : SymInv × Except PyErr Sym :=
  if (s.rawDict.get? [c]).isSome then (s, s.rawLookup [c]) else s.rawFromUnknown c

/-- symbol.py:662-692 `str_to_raw_symbols` with the inventory itself as base. -/
def SymInv.strToRaw (s : SymInv) : List Nat → SymInv × Except PyErr (List Sym)
  | [] => (s, .ok [])
  | c :: cs =>
    match s.rawSymbol c with
    | (s, .error e) => (s, .error e)
    | (s, .ok y) =>
      match s.strToRaw cs with
      | (s, .error e) => (s, .error e)
      | (s, .ok ys) => (s, .ok (y :: ys))

/-- symbol.py:694-715 `parse`. -/
def SymInv.parse (s : SymInv) (t : List Nat) : SymInv × Except PyErr (List Sym) :=
  match s.inv.method "str_to_raw_symbols" with
  | .error e => (s, .error e)
  | .ok () => s.strToRaw t

/-- Calls that change an inventory: `add_symbols` of one symbol (symbol.py:599-613; `add_graphemes`,
grapheme.py:188-199, in a grapheme inventory), `make_suppl`, and parsing. -/
inductive Op
  | add (y : Sym)
  | suppl (alias : String) (n : Nat)
  | parse (t : List Nat)
  deriving Repr

def SymInv.step (s : SymInv) : Op → SymInv
  | .add y =>
    let s := { s with next := max s.next (y.id + 1) }
    match s.kind with
    | .base => (s.addSymbol y).1
    | .grapheme => (s.addSymbolAndAtomic y).1
  | .suppl a n => { s with inv := (s.inv.makeSuppl a (.obj n)).1 }
  | .parse t => (s.parse t).1

def SymInv.run (s : SymInv) (os : List Op) : SymInv := os.foldl SymInv.step s

end Nisaba.Symbol
