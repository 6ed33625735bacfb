import Verif.Model.Inventory
/-!
# Model of the feature pairs of symbols

nisaba/scripts/natural_translit/utils/symbol.py `Symbol.set_attribute`, `Symbol.feature_pair`, and
script/grapheme.py `Grapheme.Inventory.import_as_feature_pairs`.  Symbols are mutable objects; the
state keeps them in a list and an object is referred to by its place there.  The first seven are the
control symbols.  Of the features of a symbol only the list of those handed to `add_features` is
kept (what `add_features` does with them is modelled in `Verif.Model.Profile`).  Texts, raw texts
and indices of symbols are left out, and so are attribute names with double underscores.
-/
namespace Nisaba.Pair
open Nisaba.Inv

/-- `TypeError` and `AttributeError` (a method or field is hidden), `IndexError`. -/
inductive Err
  | typeError | attributeError | valueError | indexError
  deriving DecidableEq, Repr

def ofPy : PyErr → Err
  | .typeError => .typeError
  | .attributeError => .attributeError
  | .valueError => .valueError

/-- What an attribute of a symbol holds: what the constructor put there, a symbol, or a feature. -/
inductive Attr
  | own
  | sym (s : Nat)
  | feat (f : Nat)
  deriving DecidableEq, Repr

/-- utils/feature.py:117-137 `Feature`: identity, alias, text, and the text of its aspect. -/
structure Ftr where
  id : Nat
  alias : String
  text : String
  aspect : String
  deriving DecidableEq, Repr

/-- A symbol: alias, the entries of `__dict__` (the newest entry of a name counts), and the features
given to `add_features`. -/
structure Obj where
  alias : String
  attrs : List (String × Attr)
  added : List Nat
  deriving DecidableEq, Repr

/-- The value of an attribute that is kept in the object. -/
def Obj.get (o : Obj) (name : String) : Option Attr := (o.attrs.find? (fun p => p.1 == name)).map (·.2)

/-- Names in `__dict__` after the constructors type_op.py:45-48, symbol.py:32-39, 322-341,
phonological_symbol.py:35-47. -/
def symbolFields : List String :=
  ["alias", "text", "value", "index", "raw", "name", "features", "inventory", "symbol", "language"]

/-- A new symbol with the features given to the constructor. -/
def Obj.new (alias : String) (fs : List Nat) : Obj := ⟨alias, symbolFields.map (fun k => (k, .own)), fs⟩

/-- All symbols. -/
abbrev Syms := List Obj

/-- symbol.py:718-745 `_control_symbols`. -/
def ctrl : Syms := ["eps", "unk", "bos", "eos", "oos", "nor", "nos"].map (fun a => Obj.new a [])

/-- `Symbol.CTRL.nos`. -/
def nos : Nat := 6

/-- symbol.py:346-347 `self in Symbol.CTRL`. -/
def isCtrl (s : Nat) : Bool := s < 7

/-- The value of the attribute `name` of the symbol `s`. -/
def get (w : Syms) (s : Nat) (name : String) : Option Attr :=
  match w[s]? with
  | some o => o.get name
  | none => none

/-- Look up a method of the class and call it: an entry of `__dict__` hides it. -/
def callable (w : Syms) (s : Nat) (m : String) : Except Err Unit :=
  match get w s m with
  | none => .ok ()
  | some _ => .error .typeError

/-- `setattr(self, name, value)`. -/
def setAttr (w : Syms) (s : Nat) (name : String) (v : Attr) : Syms :=
  match w[s]? with
  | some o => w.set s { o with attrs := (name, v) :: o.attrs }
  | none => w

/-- symbol.py:385-425 `add_features`: without features the field `features` is not read. -/
def addFeatures (w : Syms) (s : Nat) (fs : List Nat) : Syms × Except Err Unit :=
  match callable w s "add_features" with
  | .error e => (w, .error e)
  | .ok () =>
    if fs.isEmpty then (w, .ok ())
    else if get w s "features" = some .own then
      match w[s]? with
      | some o => (w.set s { o with added := o.added ++ fs }, .ok ())
      | none => (w, .error .attributeError)
    else (w, .error .attributeError)

/-- symbol.py:346-347 `is_control` as a call. -/
def isControl (w : Syms) (s : Nat) : Except Err Bool :=
  match callable w s "is_control" with
  | .error e => .error e
  | .ok () => .ok (isCtrl s)

/-- symbol.py:427-456 `set_attribute`. -/
def setAttribute (w : Syms) (s : Nat) (name : String) (v : Attr) (fs : List Nat) :
    Syms × Except Err Unit :=
  match callable w s "set_attribute" with
  | .error e => (w, .error e)
  | .ok () =>
  match isControl w s with
  | .error e => (w, .error e)
  | .ok true => (w, .ok ())
  | .ok false => addFeatures (setAttr w s name v) s fs

/-- Statements one after the other; an exception ends them. -/
def andThen (r : Syms × Except Err Unit) (k : Syms → Syms × Except Err Unit) : Syms × Except Err Unit :=
  match r with
  | (w, .ok ()) => k w
  | (w, .error e) => (w, .error e)

/-- `symbol if not symbol.is_control() else Symbol.CTRL.nos` as an argument. -/
def orNos (w : Syms) (s : Nat) : Except Err Attr :=
  match isControl w s with
  | .error e => .error e
  | .ok c => .ok (.sym (if c then nos else s))

/-- symbol.py:507-516, each of the two calls: the argument is computed first; both errors are a
`TypeError`. -/
def setPair (w : Syms) (s : Nat) (name : String) (other : Nat) (fs : List Nat) :
    Syms × Except Err Unit :=
  match orNos w other with
  | .error e => (w, .error e)
  | .ok v => setAttribute w s name v fs

/-- symbol.py:458-519 `x.feature_pair(y, f, t, add_aspect, add_features)`. -/
def featurePair (w : Syms) (x y : Nat) (f t : Ftr) (addAspect addFeats : Bool) :
    Syms × Except Err Unit :=
  andThen (setAttribute w x f.text (.sym x) []) fun w =>
  andThen (setAttribute w y t.text (.sym y) []) fun w =>
  andThen (setPair w x t.text y (if addFeats then [f.id] else [])) fun w =>
  andThen (setPair w y f.text x (if addFeats then [t.id] else [])) fun w =>
  if addAspect then
    andThen (setAttribute w x f.aspect (.feat f.id) []) fun w =>
    setAttribute w y t.aspect (.feat t.id) []
  else (w, .ok ())

/-- A call of `feature_pair`. -/
structure Call where
  x : Nat
  y : Nat
  f : Ftr
  t : Ftr
  addAspect : Bool := true
  addFeats : Bool := true

/-- A history of calls; exceptions are caught by the caller.  Calls on objects that do not exist do
nothing. -/
def step (w : Syms) (c : Call) : Syms :=
  if c.x < w.length ∧ c.y < w.length then (featurePair w c.x c.y c.f c.t c.addAspect c.addFeats).1
  else w

def run (w : Syms) (cs : List Call) : Syms := cs.foldl step w

/-- Control symbols and new symbols with these aliases and features. -/
def start (as : List (String × List Nat)) : Syms := ctrl ++ as.map (fun p => Obj.new p.1 p.2)

/-! ## Importing pairs -/

/-- What an inventory can hold: a symbol, a list of symbols, other objects. -/
inductive Item
  | sym (s : Nat)
  | list (l : List Nat)
  | obj (n : Nat)
  deriving DecidableEq, Repr

/-- All symbols and one grapheme inventory (script/grapheme.py:166-179; symbol.py:537-552) with its
inventory of atomics (phonological_symbol.py:81), whose items are named by the symbol. -/
structure State where
  syms : Syms
  inv : Inventory Item
  atomics : Inventory Item

/-- script/grapheme.py:169-177: a new inventory; the object number 0 stands for `Symbol.CTRL`. -/
def State.new (w : Syms) : State where
  syms := w
  inv := ((Inventory.new (fun v => match v with | .sym _ => true | _ => false)
    ["index_dict", "raw_dict", "text_dict", "prefix", "unknown_count", "language", "atomics",
      "script"]).addSuppl "CTRL" (.obj 0)).1
  atomics := Inventory.new (fun _ => true)

def pyResult (r : Except PyErr Bool) : Except Err Bool :=
  match r with
  | .ok b => .ok b
  | .error e => .error (ofPy e)

/-- Look up a method of the inventory and call it. -/
def State.method (s : State) (m : String) : Except Err Unit :=
  match s.inv.method m with
  | .ok () => .ok ()
  | .error e => .error (ofPy e)

/-- phonological_symbol.py:83-87 `_add_symbol_and_atomic`; symbol.py:586-593 `_add_symbol` (the
dictionaries are left out). -/
def State.addSymbolAndAtomic (s : State) (g : Nat) (alias : String) : State × Except Err Bool :=
  match s.method "_add_symbol_and_atomic" with
  | .error e => (s, .error e)
  | .ok () =>
  match s.method "_add_symbol" with
  | .error e => (s, .error e)
  | .ok () =>
  match s.inv.addItem alias (.sym g) with
  | (i, .error e) => ({ s with inv := i }, .error (ofPy e))
  | (i, .ok false) => ({ s with inv := i }, .ok false)
  | (i, .ok true) =>
    let s := { s with inv := i }
    match s.method "_add_to_dicts" with
    | .error e => (s, .error e)
    | .ok () =>
      let r := s.atomics.addItem alias (.sym g)
      ({ s with atomics := r.1 }, pyResult r.2)

/-- script/grapheme.py:191-196: the loop of `add_graphemes`; the result is the list of the symbols
added. -/
def State.addGraphemes (s : State) : List (Nat × String) → State × Except Err (List Nat)
  | [] => (s, .ok [])
  | (g, a) :: gs =>
    match s.addSymbolAndAtomic g a with
    | (s, .error e) => (s, .error e)
    | (s, .ok b) =>
      match s.addGraphemes gs with
      | (s, .error e) => (s, .error e)
      | (s, .ok l) => (s, .ok (if b then g :: l else l))

/-- script/grapheme.py:152-164 `copy`: a new object without the attributes of pairs.  Simplification:
the copy has the features of the original (the profiles of copies are C79). -/
def copyOf (w : Syms) (g : Nat) : Obj :=
  match w[g]? with
  | some o => Obj.new o.alias o.added
  | none => Obj.new "" []

/-- The objects with their places, counted from `n`. -/
def placed (n : Nat) : List Obj → List (Nat × String)
  | [] => []
  | o :: os => (n, o.alias) :: placed (n + 1) os

/-- script/grapheme.py:201-207 `import_graphemes` without a list alias. -/
def State.importGraphemes (s : State) (gs : List Nat) : State × Except Err (List Nat) :=
  match s.method "add_graphemes" with
  | .error e => (s, .error e)
  | .ok () =>
    let cs := gs.map (copyOf s.syms)
    { s with syms := s.syms ++ cs }.addGraphemes (placed s.syms.length cs)

/-- script/grapheme.py:219-224: the loop of `import_as_feature_pairs`. -/
def State.importLoop (s : State) (f t : Ftr) :
    List (Nat × Nat) → State × Except Err (List Nat × List Nat)
  | [] => (s, .ok ([], []))
  | (x, y) :: ps =>
    match s.method "import_graphemes" with
    | .error e => (s, .error e)
    | .ok () =>
    match s.importGraphemes [x, y] with
    | (s, .error e) => (s, .error e)
    | (s, .ok l) =>
      match l[0]?, l[1]? with
      | some x', some y' =>
        match featurePair s.syms x' y' f t true true with
        | (w, .error e) => ({ s with syms := w }, .error e)
        | (w, .ok ()) =>
          match { s with syms := w }.importLoop f t ps with
          | (s, .error e) => (s, .error e)
          | (s, .ok (fl, tl)) => (s, .ok (x' :: fl, y' :: tl))
      | _, _ => (s, .error .indexError)

/-- symbol.py:595-597 `make_iterable_suppl`. -/
def State.makeIterableSuppl (s : State) (alias : String) (l : List Nat) : State × Except Err Bool :=
  match s.method "make_iterable_suppl" with
  | .error e => (s, .error e)
  | .ok () =>
    let r := s.inv.addSuppl alias (.list l)
    ({ s with inv := r.1 }, pyResult r.2)

/-- script/grapheme.py:209-227 `import_as_feature_pairs`. -/
def State.importAsFeaturePairs (s : State) (f t : Ftr) (ps : List (Nat × Nat)) (suppls : Bool) :
    State × Except Err Unit :=
  match s.importLoop f t ps with
  | (s, .error e) => (s, .error e)
  | (s, .ok (fl, tl)) =>
    if suppls then
      match s.makeIterableSuppl f.alias fl with
      | (s, .error e) => (s, .error e)
      | (s, .ok _) =>
        match s.makeIterableSuppl t.alias tl with
        | (s, .error e) => (s, .error e)
        | (s, .ok _) => (s, .ok ())
    else (s, .ok ())

end Nisaba.Pair
