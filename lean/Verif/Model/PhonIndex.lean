import Verif.Model.Inventory
/-!
# Model of the indices of phonemes

nisaba/scripts/natural_translit/phonology/phonological_symbol.py `Phon.Inventory` and the index
dictionary of utils/symbol.py `Symbol.Inventory`.  Phonemes are mutable objects; the state keeps
them in a list and an object is referred to by its place there, and so are the inventories.
Features, IPA texts and the dictionaries of texts are left out, and of the inventory of atomics it is
left out that adding an atomic can fail, which only changes the list that is returned.
-/
namespace Nisaba.PhonIndex
open Nisaba.Inv

/-- phonological_symbol.py:126-150 `Phon`: the alias, the index and the index of the language. -/
structure Phon where
  alias : String
  index : Nat
  lang : Nat
  deriving DecidableEq, Repr

/-- What an inventory can hold as fields: phonemes and other objects. -/
inductive Item
  | phon (p : Nat)
  | obj (n : Nat)
  deriving DecidableEq, Repr

/-- phonological_symbol.py:170-175 `Phon.Inventory`: the index of the language, the fields and items,
and `index_dict` with the newest entry first.  Control symbols have the entries 1000000 to 1000006;
they are left out, as no phoneme gets such an index. -/
structure PhonInv where
  lang : Nat
  inv : Inventory Item
  indexDict : List (Nat × Nat)

/-- All phonemes and all inventories. -/
structure State where
  phons : List Phon
  invs : List PhonInv

/-- symbol.py:319 `ReservedIndex.PHONEME_PREFIX`. -/
def phonemePrefix : Nat := 3000000

/-- symbol.py:318 `ReservedIndex.GRAPHEME_PREFIX`. -/
def graphemePrefix : Nat := 2000000

/-- phonological_symbol.py:33 `LANG_PREFIX_MULTIPLIER`. -/
def langPrefixMultiplier : Nat := 100

/-- script/grapheme.py:127-128: the index of a grapheme made from a character. -/
def graphemeIndex (c : Nat) : Nat := graphemePrefix + c

/-- phonological_symbol.py:73-81, 173-175: a new inventory for a language
(symbol.py:537-553; the object number 0 stands for the inventory of control symbols). -/
def PhonInv.new (lang : Nat) : PhonInv where
  lang := lang
  inv := ((Inventory.new (fun v => match v with | .phon _ => true | .obj _ => false)
    ["index_dict", "raw_dict", "text_dict", "prefix", "unknown_count", "language", "atomics"]).addSuppl
      "CTRL" (.obj 0)).1
  indexDict := []

/-- symbol.py:586-593 `_add_symbol` and 570-584 `_add_to_dicts` for the phoneme `p` with alias and
index given. -/
def PhonInv.addSymbol (s : PhonInv) (p : Nat) (alias : String) (index : Nat) :
    PhonInv × Except PyErr Bool :=
  match s.inv.method "_add_symbol" with
  | .error e => (s, .error e)
  | .ok () =>
  match s.inv.addItem alias (.phon p) with
  | (i, .ok true) =>
    match i.method "_add_to_dicts" with
    | .error e => ({ s with inv := i }, .error e)
    | .ok () => ({ s with inv := i, indexDict := (index, p) :: s.indexDict }, .ok true)
  | (i, .ok false) => ({ s with inv := i }, .ok false)
  | (i, .error e) => ({ s with inv := i }, .error e)

/-- phonological_symbol.py:177-186 `_add_phoneme`: the language and the index of the phoneme are set
before it is added (phonological_symbol.py:83-87 `_add_symbol_and_atomic`). -/
def State.addPhoneme (w : State) (i p : Nat) : State × Except PyErr Bool :=
  match w.invs[i]?, w.phons[p]? with
  | some s, some y =>
    let y : Phon :=
      { y with
        lang := s.lang
        index := phonemePrefix + s.lang * langPrefixMultiplier + s.inv.items.length + 1 }
    let w := { w with phons := w.phons.set p y }
    match s.inv.method "_add_symbol_and_atomic" with
    | .error e => (w, .error e)
    | .ok () =>
      let r := s.addSymbol p y.alias y.index
      ({ w with invs := w.invs.set i r.1 }, r.2)
  | _, _ => (w, .error .attributeError)

/-- symbol.py:639-641 `index_lookup` with 615-636 `lookup`: `none` stands for `Symbol.CTRL.unk`. -/
def PhonInv.indexLookup (s : PhonInv) (index : Nat) : Except PyErr (Option Nat) :=
  match s.inv.method "index_lookup" with
  | .error e => .error e
  | .ok () =>
  match s.inv.method "lookup" with
  | .error e => .error e
  | .ok () => .ok ((s.indexDict.find? (fun e => e.1 == index)).map (·.2))

/-- Calls that change the state: `add_phonemes` with one phoneme (phonological_symbol.py:188-192; a
call with several is a sequence of these up to the first exception), and `make_suppl`, also through
`make_iterable_suppl` and the argument `list_alias`. -/
inductive Op
  | add (i p : Nat)
  | suppl (i : Nat) (alias : String) (n : Nat)

/-- One call; exceptions are caught by the caller. -/
def State.step (w : State) : Op → State
  | .add i p =>
    match w.invs[i]? with
    | none => w
    | some s =>
      match s.inv.method "_add_phoneme" with
      | .error _ => w
      | .ok () => (w.addPhoneme i p).1
  | .suppl i a n =>
    match w.invs[i]? with
    | none => w
    | some s => { w with invs := w.invs.set i { s with inv := (s.inv.makeSuppl a (.obj n)).1 } }

def State.run (w : State) (os : List Op) : State := os.foldl State.step w

/-- Phonemes as made by the constructor and empty inventories for languages with these indices. -/
def State.new (phons : List Phon) (langs : List Nat) : State := ⟨phons, langs.map PhonInv.new⟩

/-- The phonemes of an inventory, in the order of iteration. -/
def PhonInv.phonemes (s : PhonInv) : List Nat :=
  s.inv.items.filterMap fun v => match v with | .phon p => some p | .obj _ => none

end Nisaba.PhonIndex
