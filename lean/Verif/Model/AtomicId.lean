import Verif.Model.Expression
/-!
# Model of the class `Atomic` in nisaba/scripts/natural_translit/utils/expression.py, with identities

`Verif.Model.Expression` takes an `Atomic` for the symbol it stands for.  Here symbols and atomics are
objects in a store, an object is its place, and `==` is identity as in Python.  The attributes `alias`,
`text`, `raw`, `index` and `name` are one value of any type; features are a value of any type, `copy` of a
profile is taken to give the same value; an inventory is a number, 0 is `Symbol.Inventory.EMPTY`.
-/
namespace Nisaba.AtomicId

/-- An object of class `Symbol` or, if `of` is given, of class `Atomic`; `of` is the attribute `symbol` of an
`Atomic`.  The attribute `symbol` of any other symbol is itself (symbol.py:341). -/
structure Obj (A F : Type) where
  attrs : A
  features : F
  inventory : Nat
  of : Option Nat

variable {A F : Type}

abbrev Store (A F : Type) := List (Obj A F)

/-- symbol.py:718-745 `_control_symbols`, the number of the control symbols: `eps`, `unk`, `bos`, `eos`,
`oos`, `nor`, `nos`. -/
def controls : Nat := 7

/-- symbol.py:718-745 and expression.py:185-195: a new process has the control symbols, which are given, and
an `Atomic` of each (`Atomic.CTRL.atm_sym_dict`). -/
def start (ctrl : Fin 7 → A × F) : Store A F :=
  (List.finRange 7).map (fun i => ⟨(ctrl i).1, (ctrl i).2, 0, none⟩) ++
    (List.finRange 7).map fun i => ⟨(ctrl i).1, (ctrl i).2, 0, some i⟩

/-- symbol.py:322-341 `Symbol.__init__`. -/
def newSymbol (st : Store A F) (a : A) (f : F) : Store A F × Nat := (st ++ [⟨a, f, 0, none⟩], st.length)

/-- The attribute `symbol` of an object. -/
def symbolOf (st : Store A F) (r : Nat) : Option Nat := st[r]?.map fun o => o.of.getD r

/-- expression.py:145-158 `Atomic.__init__`; `none` if there is no such object. -/
def atomic (st : Store A F) (r : Nat) : Option (Store A F × Nat) :=
  st[r]?.map fun o => (st ++ [⟨o.attrs, o.features, 0, some (o.of.getD r)⟩], st.length)

/-- expression.py:160-176 `Atomic.get_instance`, and 178-179 `copy` of an `Atomic`. -/
def getInstance (st : Store A F) (r : Nat) : Option (Store A F × Nat) :=
  if r < controls then some (st, r + controls)
  else if r < 2 * controls then some (st, r)
  else atomic st r

/-- symbol.py:346-347 `Symbol.is_control` and expression.py:181-182 `Atomic.is_control`. -/
def isControl (st : Store A F) (r : Nat) : Bool :=
  match st[r]? with
  | none => false
  | some o =>
    match o.of with
    | none => decide (r < controls)
    | some s => decide (controls ≤ r ∧ r < 2 * controls) || decide (s < controls)

/-- symbol.py:349-353 and expression.py:110-114 `is_eps`, `is_nor`: `k` is the place of the constant.
The attribute `symbol` is no `Atomic` (`C137_symbol`), so its `is_eps` is that of `Symbol`. -/
def isConst (k : Nat) (st : Store A F) (r : Nat) : Bool := symbolOf st r == some k

/-- symbol.py:343-344 `symbols`. -/
def symbols (st : Store A F) (r : Nat) : Option (List (List Nat)) := (symbolOf st r).map fun s => [[s]]

/-- What a program does with symbols: makes a symbol, an `Atomic`, an instance, changes the features of an
object, puts it in an inventory. -/
inductive Act (A F : Type)
  | newSymbol (a : A) (f : F)
  | atomic (r : Nat)
  | instance (r : Nat)
  | setFeatures (r : Nat) (f : F)
  | setInventory (r : Nat) (i : Nat)

/-- One act; an act on no object does nothing. -/
def act (st : Store A F) : Act A F → Store A F
  | .newSymbol a f => (newSymbol st a f).1
  | .atomic r => ((atomic st r).map (·.1)).getD st
  | .instance r => ((getInstance st r).map (·.1)).getD st
  | .setFeatures r f => st.modify r fun o => { o with features := f }
  | .setInventory r i => st.modify r fun o => { o with inventory := i }

/-- The store after some acts. -/
def run (ctrl : Fin 7 → A × F) (acts : List (Act A F)) : Store A F := acts.foldl act (start ctrl)

end Nisaba.AtomicId
