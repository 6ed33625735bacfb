/-!
# Model of nisaba/scripts/natural_translit/utils/inventory.py

An inventory keeps its items and supplements as fields of the Python instance, next to its own
attributes.  Values are members of any type with decidable equality (Python `==`; two `Thing`s are
equal only if they are the same object).  Log messages are left out.
-/
namespace Nisaba.Inv

/-- `TypeError` (calling a value that is not callable); `AttributeError`; `ValueError`
(`max()` of an empty sequence). -/
inductive PyErr
  | typeError | attributeError | valueError
  deriving DecidableEq, Repr

/-- Content of a field of `__dict__`: an attribute of the inventory itself, or a user value. -/
inductive Field (V : Type)
  | own
  | val (v : V)
  deriving DecidableEq, Repr

/-- Names in `__dict__` after `Inventory.__init__`: `alias`, `text`, `value`
(type_op.py:45-48 `_ObjectWithAliasAndValue.__init__`), `_items`, `_item_type`
(type_op.py:223-230 `IterableThing.__init__`), `item_aliases`, `suppl_aliases`
(inventory.py:48-52). -/
def ownFields : List String :=
  ["alias", "text", "value", "_items", "_item_type", "item_aliases", "suppl_aliases"]

/-- Attribute names that Python resolves on the type before it looks at `__dict__`
(data descriptors of `object`). -/
def dataDescriptors : List String := ["__class__", "__dict__", "__weakref__"]

/-- State of an `Inventory` (inventory.py:31-52).  `valid` is `valid_item`
(type_op.py:238-243), which depends on the item type only. -/
structure Inventory (V : Type) where
  valid : V → Bool
  dict : List (String × Field V)
  items : List V
  itemAliases : List String
  supplAliases : List String

variable {V : Type} [DecidableEq V]

/-- inventory.py:48-52 `Inventory.__init__`; `extra` are the attributes that a subclass sets in its
own `__init__` before any item is added. -/
def Inventory.new (valid : V → Bool) (extra : List String := []) : Inventory V where
  valid := valid
  dict := (ownFields ++ extra).map (fun k => (k, Field.own))
  items := []
  itemAliases := []
  supplAliases := []

/-- `k in self.__dict__.keys()`. -/
def Inventory.hasKey (s : Inventory V) (k : String) : Bool := s.dict.any (fun p => p.1 == k)

/-- Look up `self.m` for a method `m` of the class and call it: a field of the instance with the
same name hides the method and is not callable. -/
def Inventory.method (s : Inventory V) (m : String) : Except PyErr Unit :=
  if s.hasKey m then .error .typeError else .ok ()

/-- inventory.py:71-75 `_add_field`. -/
def Inventory.addField (s : Inventory V) (alias : String) (value : V) : Inventory V × Bool :=
  if s.hasKey alias then (s, false)
  else ({ s with dict := s.dict ++ [(alias, .val value)] }, true)

/-- inventory.py:85-93 `add_item(thing, attr)`.  `alias` is `thing.alias` and `value` is
`getattr(thing, attr, MISSING)` or the thing itself. -/
def Inventory.addItem (s : Inventory V) (alias : String) (value : V) :
    Inventory V × Except PyErr Bool :=
  match s.method "add_item" with
  | .error e => (s, .error e)
  | .ok () =>
  match s.method "valid_item" with
  | .error e => (s, .error e)
  | .ok () =>
  if !s.valid value || s.items.contains value then (s, .ok false)
  else
    match s.method "_add_field" with
    | .error e => (s, .error e)
    | .ok () =>
      match s.addField alias value with
      | (s', true) =>
        ({ s' with items := s'.items ++ [value], itemAliases := s'.itemAliases ++ [alias] },
          .ok true)
      | (s', false) => (s', .ok false)

/-- inventory.py:99-104 `make_suppl(alias, value)`. -/
def Inventory.makeSuppl (s : Inventory V) (alias : String) (value : V) :
    Inventory V × Except PyErr Bool :=
  match s.method "make_suppl" with
  | .error e => (s, .error e)
  | .ok () =>
  match s.method "_add_field" with
  | .error e => (s, .error e)
  | .ok () =>
    match s.addField alias value with
    | (s', true) => ({ s' with supplAliases := s'.supplAliases ++ [alias] }, .ok true)
    | (s', false) => (s', .ok false)

/-- inventory.py:95-97 `add_suppl(suppl)`: `make_suppl(suppl.alias, suppl.value)`. -/
def Inventory.addSuppl (s : Inventory V) (alias : String) (value : V) :
    Inventory V × Except PyErr Bool :=
  match s.method "add_suppl" with
  | .error e => (s, .error e)
  | .ok () => s.makeSuppl alias value

/-- `getattr(self, name, default)` for a name that is no method of the class, and for a name that
is one: `none` stands for the type's own attribute (method or data descriptor). -/
def Inventory.getattr (s : Inventory V) (name : String) (default : V) : Option (Field V) :=
  if name ∈ dataDescriptors then none
  else match s.dict.find? (fun p => p.1 == name) with
    | some p => some p.2
    | none => some (.val default)

/-- inventory.py:106-111 `get(alias, default)`. -/
def Inventory.get (s : Inventory V) (alias : String) (default : V) :
    Except PyErr (Option (Field V)) :=
  match s.method "get" with
  | .error e => .error e
  | .ok () =>
    if s.itemAliases.contains alias || s.supplAliases.contains alias then
      .ok (s.getattr alias default)
    else .ok (some (.val default))

/-- One call of the interface that changes an inventory. -/
inductive Op (V : Type)
  | addItem (alias : String) (value : V)
  | addSuppl (alias : String) (value : V)
  | makeSuppl (alias : String) (value : V)
  deriving Repr

def Op.alias : Op V → String
  | .addItem a _ | .addSuppl a _ | .makeSuppl a _ => a

def Inventory.step (s : Inventory V) : Op V → Inventory V × Except PyErr Bool
  | .addItem a v => s.addItem a v
  | .addSuppl a v => s.addSuppl a v
  | .makeSuppl a v => s.makeSuppl a v

/-- A sequence of calls; an exception of one call is caught by the caller. -/
def Inventory.run (s : Inventory V) : List (Op V) → Inventory V × List (Except PyErr Bool)
  | [] => (s, [])
  | o :: os =>
    let r := s.step o
    let r' := r.1.run os
    (r'.1, r.2 :: r'.2)

/-- inventory.py:54-69 `from_list` without the supplements: the state after all `add_item`s. -/
def Inventory.fromList (valid : V → Bool) (items : List (String × V)) : Inventory V :=
  ((Inventory.new valid).run (items.map (fun p => .addItem p.1 p.2))).1

end Nisaba.Inv
