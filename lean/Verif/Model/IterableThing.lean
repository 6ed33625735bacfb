import Verif.Model.Rule
/-!
# Model of natural_translit/utils/type_op.py: IterableThing, and of utils/fst_list.py

Python objects are trees: an iterable holds the objects it yields (when it is iterated; iterables
that contain themselves are left out).  Classes are numbers and instances are numbered.  Aliases,
texts and logging are left out.
-/
namespace Nisaba.IterableThing

/-- Python objects as far as `add` distinguishes them. -/
inductive Obj where
  /-- Instance of `Nothing`. -/
  | nothing (id : Nat)
  /-- String. -/
  | str (s : Str)
  /-- Instance of a class that is not iterable. -/
  | atom (cls id : Nat)
  /-- Instance of an iterable class other than `str`. -/
  | iter (cls id : Nat) (elems : List Obj)

/-- The class number of an object, for the test `type(self) is type(item)`; strings and `Nothing`
have classes of their own. -/
def Obj.cls : Obj → Option Nat
  | .nothing _ => none
  | .str _ => none
  | .atom c _ => some c
  | .iter c _ _ => some c

/-- `isinstance(item, Nothing)`. -/
def Obj.isNothing : Obj → Bool
  | .nothing _ => true
  | _ => false

/-- The fields of an `IterableThing`: its class, the item type (`none` is `Any`, otherwise
`isinstance` of the type), and the items. -/
structure Thing where
  cls : Nat
  itemType : Option (Obj → Bool)
  items : List Obj

/-- type_op.py:238-243 `valid_item`. -/
def Thing.validItem (self : Thing) (item : Obj) : Bool :=
  match self.itemType with
  | none => !item.isNothing && item.cls != some self.cls
  | some t => t item

mutual
/-- Body of the loop of `add` (type_op.py:246-250) for one item. -/
def addItem (valid : Obj → Bool) (items : List Obj) : Obj → List Obj
  | .nothing i => if valid (.nothing i) then items ++ [.nothing i] else items
  | .str s => if valid (.str s) then items ++ [.str s] else items
  | .atom c i => if valid (.atom c i) then items ++ [.atom c i] else items
  | .iter c i es => if valid (.iter c i es) then items ++ [.iter c i es] else addAll valid items es

/-- type_op.py:245-251 `add`: the loop over the arguments. -/
def addAll (valid : Obj → Bool) (items : List Obj) : List Obj → List Obj
  | [] => items
  | o :: os => addAll valid (addItem valid items o) os
end

/-- type_op.py:245-251 `add`. -/
def Thing.add (self : Thing) (args : List Obj) : Thing :=
  { self with items := addAll self.validItem self.items args }

/-- type_op.py:223-230 `__init__`. -/
def Thing.make (cls : Nat) (typed : Option (Obj → Bool)) (args : List Obj) : Thing :=
  ({ cls := cls, itemType := typed, items := [] } : Thing).add args

/-- A thing as an argument: iterating it yields its items (type_op.py:232-233). -/
def Thing.toObj (self : Thing) (id : Nat) : Obj := .iter self.cls id self.items

/-- Python's `list[index]` for an index in range: negative indices count from the end. -/
def pyIndex {α : Type} (l : List α) (i : Int) : Option α :=
  if 0 ≤ i then l[i.toNat]? else if -(l.length : Int) ≤ i then l[(l.length + i).toNat]? else none

/-- type_op.py:253-256 `item`. -/
def Thing.item (self : Thing) (index : Int) (default : Obj) : Obj :=
  if -(self.items.length : Int) ≤ index ∧ index < self.items.length then
    (pyIndex self.items index).getD default
  else default

/-! ## FstList -/

/-- Arguments of `FstList.add`: transducers by their relation. -/
inductive Arg where
  | fst (r : Rel)
  | str (s : Str)
  | other
  | iter (elems : List Arg)

/-- `pynini.accep(s)`. -/
def accep (s : Str) : Rel := fun x y => x = s ∧ y = s

mutual
/-- Body of the loop of `FstList.add` (fst_list.py:92-96). -/
def fstAddItem (items : List Rel) : Arg → List Rel
  | .fst r => items ++ [r]
  | .str s => items ++ [accep s]
  | .other => items
  | .iter es => fstAdd items es

/-- fst_list.py:80-97 `FstList.add`. -/
def fstAdd (items : List Rel) : List Arg → List Rel
  | [] => items
  | a :: as => fstAdd (fstAddItem items a) as
end

/-- fst_list.py:99-106 `FstList.union` (`pyn.Fst()` accepts nothing). -/
def fstUnion : List Rel → Rel
  | [] => fun _ _ => False
  | [r] => r
  | r :: rs => fun x y => r x y ∨ fstUnion rs x y

/-- Concatenation of relations. -/
def catRel (a b : Rel) : Rel := fun x y =>
  ∃ x₁ x₂ y₁ y₂, a x₁ y₁ ∧ b x₂ y₂ ∧ x = x₁ ++ x₂ ∧ y = y₁ ++ y₂

/-- fst_list.py:116-121 `FstList.concat`. -/
def fstConcat (l : List Rel) : Rel := l.foldl catRel (accep [])

/-- Closure of a relation. -/
inductive StarRel (a : Rel) : Rel
  | nil : StarRel a [] []
  | cons {x₁ x₂ y₁ y₂ : Str} (h : a x₁ y₁) (k : StarRel a x₂ y₂) : StarRel a (x₁ ++ x₂) (y₁ ++ y₂)

/-- fst_list.py:112-114 `FstList.union_star`. -/
def fstUnionStar (l : List Rel) : Rel := StarRel (fstUnion l)

/-- fst_list.py:123-125 `FstList.compose`: `ComposeFsts` with the default `file.EMPTY`, which accepts
nothing (scripts/utils/file.py:24-25). -/
def fstCompose (l : List Rel) : Rel := composeRels (fun _ _ => False) l

end Nisaba.IterableThing
