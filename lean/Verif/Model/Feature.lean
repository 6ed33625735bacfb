import Verif.Model.Inventory
/-!
# Model of nisaba/scripts/natural_translit/utils/feature.py

Features, value lists and aspects are Python objects that are equal only if they are the same object,
so each carries an identity `id`.  A value list is given as the tree of its items.  Steps are rational
numbers where Python has floats.  Texts (other than aliases) and the string representations are left
out.  Aliases equal to the name of a *method* of the aspect are not modelled here (see
`Verif.Props.Inventory` for what they do).
-/
namespace Nisaba.Feature

/-- feature.py:117-136 `Feature`. -/
structure Feat where
  id : Nat
  alias : String
  deriving DecidableEq, Repr

/-- feature.py:318-321 `ValueListType`. -/
inductive LType
  | equidistant | linear | cyclic
  deriving DecidableEq, Repr

/-- feature.py:556 `VALUES`: a feature or a value list (feature.py:380-394). -/
inductive Val
  | feat (f : Feat)
  | list (id : Nat) (alias : String) (ty : LType) (step : Rat) (items : List Val)

def Val.id : Val → Nat
  | .feat f => f.id
  | .list i _ _ _ _ => i

/-- What a field of the aspect holds: one of its own attributes, a feature, a value list or a set. -/
inductive Field
  | own
  | feature (id : Nat)
  | valueList (id : Nat)
  | set
  deriving DecidableEq, Repr

/-- State of an `Aspect` (feature.py:558-564) together with the fields `aspect` and `parent_list` of
the features and value lists.  `fields` is `__dict__`, `members` the items, `dict` is
`distance_dict`, `owned f` says that `f.aspect` is this aspect, `parents` is `parent_list`. -/
structure Aspect where
  fields : List (String × Field)
  members : List Nat
  dict : Nat → Option (Nat → Option Rat)
  maxDist : Rat
  owned : Nat → Bool
  parents : Nat → List Nat

/-- feature.py:558-564 `Aspect.__init__`, on top of `Inventory.__init__`. -/
def ownFields : List String :=
  Inv.ownFields ++ ["root_list", "inventory", "max_dist", "distance_dict"]

def Aspect.new : Aspect where
  fields := ownFields.map (fun k => (k, Field.own))
  members := []
  dict := fun _ => none
  maxDist := 0
  owned := fun _ => false
  parents := fun _ => []

/-- inventory.py:71-75 `_add_field`. -/
def Aspect.hasKey (A : Aspect) (k : String) : Bool := A.fields.any (fun p => p.1 == k)

/-- inventory.py:85-93 `add_item`: nothing happens if the item is already there or the alias is
taken. -/
def Aspect.addItem (A : Aspect) (f : Feat) : Aspect :=
  if A.members.contains f.id then A
  else if A.hasKey f.alias then A
  else { A with fields := A.fields ++ [(f.alias, .feature f.id)], members := A.members ++ [f.id] }

/-- inventory.py:95-104 `add_suppl`. -/
def Aspect.addSuppl (A : Aspect) (alias : String) (v : Field) : Aspect :=
  if A.hasKey alias then A else { A with fields := A.fields ++ [(alias, v)] }

/-- feature.py:579-583 `add_feature`. -/
def Aspect.addFeature (A : Aspect) (f : Feat) : Aspect :=
  let A := A.addItem f
  { A with
    owned := fun n => if n = f.id then true else A.owned n
    dict := fun n => if n = f.id then some (fun _ => none) else A.dict n }

/-- feature.py:585-588 `suppl_feature`. -/
def Aspect.supplFeature (A : Aspect) (f : Feat) : Aspect :=
  let A := A.addSuppl f.alias (.feature f.id)
  { A with owned := fun n => if n = f.id then true else A.owned n }

/-- `distance_dict[x][y] = d`. -/
def Aspect.put (A : Aspect) (x y : Nat) (d : Rat) : Aspect :=
  { A with
    dict := fun n =>
      if n = x then (A.dict n).map (fun g m => if m = y then some d else g m) else A.dict n }

/-- feature.py:590-600 `Aspect.add_distance`. -/
def Aspect.addDistance (A : Aspect) (f g : Feat) (d : Rat) : Aspect :=
  let A := if A.members.contains f.id then A else A.addFeature f
  let A := if A.members.contains g.id then A else A.addFeature g
  let A := A.put f.id g.id d
  let A := A.put g.id f.id d
  if A.maxDist < d then { A with maxDist := d } else A

mutual
/-- feature.py:145-153 `Feature.add_distance`. -/
def featAddDistance (f : Feat) (d : Rat) : Val → Aspect → Aspect
  | .feat g, A => if A.owned f.id then A.addDistance f g d else A
  | .list _ _ _ _ items, A => featAddDistances f d items A
/-- feature.py:152-153, the loop. -/
def featAddDistances (f : Feat) (d : Rat) : List Val → Aspect → Aspect
  | [], A => A
  | v :: vs, A => featAddDistances f d vs (featAddDistance f d v A)
end

mutual
/-- feature.py:145-153 and 411-415 `add_distance` of a feature and of a value list. -/
def addDistanceVal (w : Val) (d : Rat) : Val → Aspect → Aspect
  | .feat f, A => featAddDistance f d w A
  | .list _ _ _ _ items, A => addDistanceVals w d items A
/-- feature.py:414-415, the loop. -/
def addDistanceVals (w : Val) (d : Rat) : List Val → Aspect → Aspect
  | [], A => A
  | v :: vs, A => addDistanceVals w d vs (addDistanceVal w d v A)
end

/-- feature.py:129 `ERROR_DISTANCE`. -/
def errorDistance : Rat := 1000000

/-- `self._items.index(v)`. -/
def indexOf (items : List Val) (v : Nat) : Nat := items.findIdx (fun w => w.id == v)

/-- feature.py:396-409 `ValueList.distance`. -/
def listDistance (ty : LType) (step : Rat) (items : List Val) (v w : Nat) : Rat :=
  if !items.any (fun x => x.id == v) || !items.any (fun x => x.id == w) then errorDistance
  else
    let delta : Int := (indexOf items w : Int) - (indexOf items v : Int)
    match ty with
    | .equidistant => step
    | .linear => (delta : Rat) * step
    | .cyclic => ((min delta ((items.length : Int) - delta) : Int) : Rat) * step

/-- feature.py:428 `item.parent_list = [self] + self.parent_list`. -/
def Aspect.setParent (A : Aspect) (item self : Nat) : Aspect :=
  { A with parents := fun n => if n = item then self :: A.parents self else A.parents n }

mutual
/-- feature.py:417-434 `ValueList.populate`; a feature is handled by feature.py:429-430. -/
def populateVal : Val → Aspect → Aspect
  | .feat f, A => if A.members.contains f.id then A else A.addFeature f
  | .list id alias ty step items, A =>
    populateItems id ty step items items (A.addSuppl alias (.valueList id))
/-- feature.py:427-434, the loop over the items that are left. -/
def populateItems (id : Nat) (ty : LType) (step : Rat) (all : List Val) :
    List Val → Aspect → Aspect
  | [], A => A
  | item :: rest, A =>
    let A := A.setParent item.id id
    let A := populateVal item A
    let A := rest.foldl (fun A w => addDistanceVal w (listDistance ty step all item.id w.id) item A) A
    populateItems id ty step all rest A
end

/-- feature.py:632-650 `Aspect.populate`; `anyId` and `naId` are the two new features. -/
def Aspect.populate (root : Val) (anyId naId : Nat) : Aspect :=
  let A := populateVal root Aspect.new
  let A := A.addSuppl "all" .set
  let A := A.supplFeature ⟨anyId, "any"⟩
  A.supplFeature ⟨naId, "n_a"⟩

/-- `getattr(aspect, k)`; an absent one is an `AttributeError`. -/
def Aspect.field (A : Aspect) (k : String) : Option Field :=
  (A.fields.find? (fun p => p.1 == k)).map (·.2)

/-- feature.py:174-186 `Feature.distance` of two features; `none` is an `AttributeError`
(`None.get`). -/
def Aspect.distance (A : Aspect) (f g : Nat) : Option Rat :=
  if A.owned f != A.owned g || !A.owned f then some errorDistance
  else if g = f ∨ A.field "any" = some (.feature g) ∨ A.field "any" = some (.feature f) then some 0
  else if A.field "n_a" = some (.feature g) ∨ A.field "n_a" = some (.feature f) then some A.maxDist
  else match A.dict f with
    | none => none
    | some t => some ((t g).getD A.maxDist)

/-- feature.py:187-190 `Feature.distance` of a feature and a set, for a given distance between
features. -/
def featSetDistance (dist : Nat → Nat → Rat) (f : Nat) (s : List Nat) : Rat :=
  if s.contains f then 0 else s.foldl (fun m g => min m (dist f g)) errorDistance

/-- feature.py:285-296 `Set.distance`, the loop.  A set is given by a list of its members in the
order of iteration. -/
def setDistanceLoop (dist : Nat → Nat → Rat) (self : List Nat) : List Nat → Rat → Rat
  | [], m => m
  | f :: fs, m =>
    if self.contains f then 0
    else
      let d := featSetDistance dist f self
      if d = 0 then 0 else setDistanceLoop dist self fs (if d < m then d else m)

/-- feature.py:285-296 `Set.distance`. -/
def setDistance (dist : Nat → Nat → Rat) (self features : List Nat) : Rat :=
  setDistanceLoop dist self features errorDistance

mutual
/-- feature.py:228-234 `Set.add` of a value: the features below it. -/
def leaves : Val → List Feat
  | .feat f => [f]
  | .list _ _ _ _ items => leavesL items
def leavesL : List Val → List Feat
  | [] => []
  | v :: vs => leaves v ++ leavesL vs
end

/-- The ids of the features below a value. -/
def leafIds (v : Val) : List Nat := (leaves v).map (·.id)
def leafIdsL (vs : List Val) : List Nat := (leavesL vs).map (·.id)

/-- `IndexError` and `ValueError` of feature.py:490-492. -/
inductive RangeErr
  | indexError | valueError
  deriving DecidableEq, Repr

/-- feature.py:440-497 `ValueList.range`, as the list of the features in the resulting set. -/
def range (A : Aspect) (id : Nat) (items : List Val) (first last : Val) :
    Except RangeErr (List Nat) :=
  match A.parents first.id with
  | [] => .error .indexError
  | p :: _ =>
    if p ≠ id then .ok []
    else
      match A.parents last.id with
      | [] => .error .indexError
      | q :: _ =>
        if q ≠ id then .ok []
        else if !items.any (fun x => x.id == first.id) || !items.any (fun x => x.id == last.id) then
          .error .valueError
        else
          let i1 := indexOf items first.id
          let i2 := indexOf items last.id
          let start := min i1 i2
          let stop := max i1 i2
          let between := leafIdsL ((items.take stop).drop (start + 1))
          if i1 < i2 then .ok (between ++ leafIds first ++ leafIds last)
          else .ok ((leafIdsL items).filter (fun x => !between.contains x))

/-- feature.py:298-302 `Set.has_feature`. -/
def hasFeature (A : Aspect) (s : List Nat) (value : Nat) : Bool :=
  s.contains value || s.any (fun f => (A.parents f).contains value)

end Nisaba.Feature
