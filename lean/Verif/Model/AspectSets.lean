import Verif.Model.Feature
/-!
# Model of the sets of an aspect

nisaba/scripts/natural_translit/utils/feature.py, on top of `Verif.Model.Feature`.  A set is given by a list of
its members; only what is in it counts.
-/
namespace Nisaba.AspectSets

open Nisaba.Feature

/-- An aspect together with the sets among its supplements; a set is under its alias in `fields` too. -/
structure State where
  base : Aspect
  sets : List (String × List Nat)

/-- What may be given to feature.py:228-234 `Set.add`: a feature or a value list, or the members of a set or an
aspect.  Simplified: lists in lists are given as one list of arguments. -/
inductive Arg
  | val (v : Val)
  | members (l : List Nat)

/-- The features that feature.py:228-234 `Set.add` finds. -/
def found : List Arg → List Nat
  | [] => []
  | .val v :: as => leafIds v ++ found as
  | .members l :: as => l ++ found as

/-- feature.py:602-607 `Aspect.filter`. -/
def State.filter (S : State) (as : List Arg) : List Nat := (found as).filter S.base.owned

/-- `getattr(aspect, alias)` of a set. -/
def State.get (S : State) (alias : String) : Option (List Nat) :=
  (S.sets.find? (fun p => p.1 == alias)).map (·.2)

/-- feature.py:609-614 `_make_set`; `none` is the `AttributeError` for an aspect without the set `all`. -/
def State.makeSet (S : State) (as : List Arg) (negation : Bool) : Option (List Nat) :=
  let filtered := S.filter as
  if !negation then some filtered
  else (S.get "all").map fun all => all.filter fun x => !filtered.contains x

/-- inventory.py:95-104 `add_suppl` of a set. -/
def State.addSet (S : State) (alias : String) (s : List Nat) : State :=
  if S.base.hasKey alias then S
  else { base := S.base.addSuppl alias .set, sets := S.sets ++ [(alias, s)] }

/-- feature.py:616-617 `set`, 619-620 `set_not`. -/
def State.set (S : State) (alias : String) (as : List Arg) (negation : Bool := false) : Option State :=
  (S.makeSet as negation).map (S.addSet alias)

mutual
/-- The value list with an identity. -/
def findList (id : Nat) : Val → Option (List Val)
  | .feat _ => none
  | .list i _ _ _ items => if i = id then some items else findListL id items
def findListL (id : Nat) : List Val → Option (List Val)
  | [] => none
  | v :: vs => match findList id v with
    | some l => some l
    | none => findListL id vs
end

/-- feature.py:622-630 `set_range`; `root` is the value list of the aspect.  `none` stands for the errors: an
`IndexError` without a parent, and those of `range`. -/
def State.setRange (S : State) (root : Val) (alias : String) (first last : Val) : Option State :=
  match S.base.parents first.id with
  | [] => none
  | p :: _ =>
    match findList p root with
    | none => none
    | some items =>
      match range S.base p items first last with
      | .error _ => none
      | .ok s => S.set alias [.members s]

/-- feature.py:632-650 `Aspect.populate`: the set `all` is made of the items, before `any` and `n_a`. -/
def populate (root : Val) (anyId naId : Nat) : State :=
  let A := populateVal root Aspect.new
  { base := Aspect.populate root anyId naId
    sets := if A.hasKey "all" then [] else [("all", A.members.filter A.owned)] }

/-- A call of one of the three methods. -/
inductive Call
  | set (alias : String) (as : List Arg)
  | setNot (alias : String) (as : List Arg)
  | setRange (alias : String) (first last : Val)

def Call.alias : Call → String
  | .set a _ => a
  | .setNot a _ => a
  | .setRange a _ _ => a

/-- One call. -/
def State.call (S : State) (root : Val) : Call → Option State
  | .set a as => S.set a as
  | .setNot a as => S.set a as true
  | .setRange a f l => S.setRange root a f l

/-- Calls one after the other; after an error nothing is done. -/
def State.calls (S : State) (root : Val) : List Call → Option State
  | [] => some S
  | c :: cs => (S.call root c).bind fun S' => S'.calls root cs

/-- feature.py:304-313 `non_generic`, for a set of features of this aspect. -/
def State.nonGeneric (S : State) (s : List Nat) : List Nat :=
  s.filter fun x => !(S.base.field "any" == some (.feature x)) && !(S.base.field "n_a" == some (.feature x))

/-- feature.py:315-316 `is_equal`; Python sets are equal if each has the members of the other. -/
def isEqual (s t : List Nat) : Bool := s.all (t.contains ·) && t.all (s.contains ·)

end Nisaba.AspectSets
