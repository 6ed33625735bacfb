import Verif.Model.Feature
/-!
# Feature sets, profiles and multi-profiles

nisaba/scripts/natural_translit/utils/feature.py, classes `Set`, `Profile`, `MultiProfile`, and the
methods of `Symbol` that use them (utils/symbol.py).  Sets, profiles and multi-profiles are mutable
objects; the `World` keeps them in lists and an object is referred to by its place there.  A set is
kept as the list of its members in the order of iteration.  Not modelled: aliases equal to the name
of a method (see `Verif.Props.Inventory`), string representations, aspects whose alias is already
taken when they are added to their inventory.
-/
namespace Nisaba.Feature

/-- An aspect in its inventory (feature.py:558-564, 634-650): `anyId` and `naId` are the supplements
`any` and `n_a`. -/
structure PAspect where
  alias : String
  aspect : Aspect
  anyId : Nat
  naId : Nat

/-- feature.py:674-701 `Feature.Inventory`.  `id` is the identity of the object, `na` the profile
`not_applicable`. -/
structure FInv where
  id : Nat
  alias : String
  aspects : List PAspect
  na : Nat

/-- feature.py:733-787 `Feature.Profile`: the inventory and the value sets (places in the world) by
the alias of their aspect. -/
structure Prof where
  inv : FInv
  sets : List (String × Nat)

/-- All set objects, profile objects and multi-profile objects (feature.py:934-938; the profiles by
their alias). -/
structure World where
  sets : List (List Nat)
  objs : List Prof
  mps : List (List (String × Nat))

/-- What may be passed as features (feature.py:127 `ITERABLE`): a feature, a set, a profile, a
multi-profile, another iterable (a list, a value list, an aspect), or anything else. -/
inductive Arg
  | feat (f : Nat)
  | set (r : Nat)
  | profile (o : Nat)
  | multi (j : Nat)
  | iter (xs : List Arg)
  | other

/-- The members of a set object. -/
def World.content (W : World) (r : Nat) : List Nat := W.sets.getD r []

/-- The value sets of a profile object, in the order of iteration. -/
def World.refs (W : World) (o : Nat) : List Nat :=
  match W.objs[o]? with
  | some p => p.sets.map (·.2)
  | none => []

/-- The profile objects of a multi-profile. -/
def World.members (W : World) (j : Nat) : List Nat := (W.mps.getD j []).map (·.2)

mutual
/-- The set objects that are read when the argument is iterated. -/
def Arg.reads (W : World) : Arg → List Nat
  | .feat _ => []
  | .set r => [r]
  | .profile o => W.refs o
  | .multi j => (W.members j).flatMap W.refs
  | .iter xs => Arg.readsL W xs
  | .other => []
def Arg.readsL (W : World) : List Arg → List Nat
  | [] => []
  | x :: xs => x.reads W ++ Arg.readsL W xs
end

mutual
/-- The features that feature.py:228-234 `Set.add` finds in an argument.  `self.add(*feature)` takes
the items of the argument before it adds them, so a set that is added to itself does not change. -/
def Arg.flat (W : World) : Arg → List Nat
  | .feat f => [f]
  | .set r => W.content r
  | .profile o => (W.refs o).flatMap W.content
  | .multi j => ((W.members j).flatMap W.refs).flatMap W.content
  | .iter xs => Arg.flatL W xs
  | .other => []
def Arg.flatL (W : World) : List Arg → List Nat
  | [] => []
  | x :: xs => x.flat W ++ Arg.flatL W xs
end

/-- `set.add`. -/
def insertId (s : List Nat) (f : Nat) : List Nat := if s.contains f then s else s ++ [f]

/-- The set with the given features. -/
def toSet (fs : List Nat) : List Nat := fs.foldl insertId []

/-- Replace the members of a set object. -/
def World.write (W : World) (r : Nat) (s : List Nat) : World := { W with sets := W.sets.set r s }

/-- feature.py:208-214 `Set.__init__`: a new set object. -/
def World.newSet (W : World) (args : List Arg) : World × Nat :=
  ({ W with sets := W.sets ++ [toSet (Arg.flatL W args)] }, W.sets.length)

/-- feature.py:228-234 `Set.add`. -/
def World.setAdd (W : World) (r : Nat) (args : List Arg) : World :=
  W.write r ((Arg.flatL W args).foldl insertId (W.content r))

/-- feature.py:252-255 `Set.remove`: `Feature.Set(*features)` is built first. -/
def World.setRemove (W : World) (r : Nat) (args : List Arg) : World :=
  W.write r ((W.content r).filter (fun f => !(Arg.flatL W args).contains f))

/-- feature.py:257-264 `Set.replace`: the old features are removed before the new ones are looked
at. -/
def World.setReplace (W : World) (r : Nat) (old new : List Arg) : World :=
  (W.setRemove r old).setAdd r new

/-- feature.py:266-268 `Set.reset`. -/
def World.setReset (W : World) (r : Nat) : World := W.write r []

/-- feature.py:270-271 `Set.update`: `self.reset().add(*features)`. -/
def World.setUpdate (W : World) (r : Nat) (args : List Arg) : World := (W.setReset r).setAdd r args

/-- feature.py:276-277 `Set.difference`. -/
def World.setDifference (W : World) (r : Nat) (args : List Arg) : World × Nat :=
  W.newSet (((W.content r).filter (fun f => !(Arg.flatL W args).contains f)).map Arg.feat)

/-- feature.py:279-280 `Set.union`. -/
def World.setUnion (W : World) (r : Nat) (args : List Arg) : World × Nat :=
  W.newSet ((W.content r ++ Arg.flatL W args).map Arg.feat)

/-- feature.py:282-283 `Set.intersection`. -/
def World.setIntersection (W : World) (r : Nat) (args : List Arg) : World × Nat :=
  W.newSet (((W.content r).filter (fun f => (Arg.flatL W args).contains f)).map Arg.feat)

/-- feature.py:273-274 `Set.copy`. -/
def World.setCopy (W : World) (r : Nat) : World × Nat := W.newSet [.set r]

/-- Attributes of a profile that are set before its items are added: those of an inventory and
feature.py:779-780 `inventory`, `max_dist`. -/
def profileFields : List String := Inv.ownFields ++ ["inventory", "max_dist"]

/-- feature.py:781-787: the loop of `Profile.__init__`; `fs` are the features given.  An item whose
alias is taken is not added (inventory.py:85-93). -/
def buildSets (naDefault : Bool) (fs : List Nat) :
    List PAspect → List (List Nat) → List (String × Nat) → List (List Nat) × List (String × Nat)
  | [], S, acc => (S, acc)
  | a :: as, S, acc =>
    let v := fs.filter (fun f => a.aspect.owned f)
    let v := if v.isEmpty then [if naDefault then a.naId else a.anyId] else v
    if profileFields.contains a.alias || acc.any (fun p => p.1 == a.alias) then
      buildSets naDefault fs as S acc
    else buildSets naDefault fs as (S ++ [v]) (acc ++ [(a.alias, S.length)])

/-- feature.py:762-787 `Profile.__init__`.  `group_by_aspect` (feature.py:236-250) keeps the features
of the inventory, by aspect. -/
def World.newProfile (W : World) (inv : FInv) (args : List Arg) (naDefault : Bool := false) :
    World × Nat :=
  let r := buildSets naDefault (toSet (Arg.flatL W args)) inv.aspects W.sets []
  ({ W with sets := r.1, objs := W.objs ++ [⟨inv, r.2⟩] }, W.objs.length)

/-- feature.py:695-701 `Inventory.__init__` for populated aspects: the profile `not_applicable`. -/
def World.newInventory (W : World) (id : Nat) (alias : String) (aspects : List PAspect) :
    World × FInv :=
  let inv : FInv := ⟨id, alias, aspects, W.objs.length⟩
  ((W.newProfile inv [] true).1, inv)

/-- inventory.py:106-111 on a profile: the set with the alias. -/
def Prof.find (p : Prof) (alias : String) : Option Nat :=
  (p.sets.find? (fun q => q.1 == alias)).map (·.2)

/-- feature.py:808-817 `Profile.get`: the members of the set for an aspect; if there is none, of a
new set with `n_a`.  The inventory of the aspect only matters for the alias of the new set. -/
def World.get (W : World) (o : Nat) (a : PAspect) : List Nat :=
  match W.objs[o]? with
  | none => []
  | some p =>
    match p.find a.alias with
    | some r => W.content r
    | none => [a.naId]

/-- feature.py:819-820 `Profile.copy`: `Profile(self.inventory, alias, *self)`. -/
def World.copyProfile (W : World) (o : Nat) : World × Nat :=
  match W.objs[o]? with
  | some p => W.newProfile p.inv [.profile o]
  | none => (W, o)

/-- feature.py:855-856, the loop of `Profile.update` over the aspects with given features.  The set
of values is a new object, and a set that `get` makes up is dropped. -/
def updateSets (p : Prof) (fs : List Nat) : List PAspect → World → World
  | [], W => W
  | a :: as, W =>
    let v := fs.filter (fun f => a.aspect.owned f)
    if v.isEmpty then updateSets p fs as W
    else match p.find a.alias with
      | some r => updateSets p fs as (W.write r v)
      | none => updateSets p fs as W

/-- feature.py:822-857 `Profile.update`. -/
def World.updateProfile (W : World) (o : Nat) (args : List Arg) : World :=
  match W.objs[o]? with
  | some p => updateSets p (toSet (Arg.flatL W args)) p.inv.aspects W
  | none => W

/-- feature.py:163-186 `Feature.distance`, for features of the inventory.  Simplification: features
of other inventories are at the error distance from all others. -/
def FInv.dist (inv : FInv) (f g : Nat) : Rat :=
  if f = g then 0
  else match inv.aspects.find? (fun a => a.aspect.owned f) with
  | some a => (a.aspect.distance f g).getD errorDistance
  | none => errorDistance

/-- The argument `aspects` of feature.py:859-864 `Profile.compare`. -/
inductive Aspects
  | unspecified
  | one (a : PAspect)
  | many (as : List PAspect)

/-- `AttributeError` and `ZeroDivisionError`. -/
inductive CompareErr
  | attributeError | zeroDivision
  deriving DecidableEq, Repr

/-- feature.py:891-896, the loop of `compare`: total distance and maximum distance. -/
def World.totals (W : World) (inv : FInv) (o1 o2 : Nat) : List PAspect → Rat × Rat
  | [] => (0, 0)
  | a :: as =>
    let t := W.totals inv o1 o2 as
    (setDistance inv.dist (W.get o1 a) (W.get o2 a) + t.1, a.aspect.maxDist + t.2)

/-- feature.py:904 `similarity = 1 - total_dist / max_dist`. -/
def similarityOf (t : Rat × Rat) : Except CompareErr Rat :=
  if t.2 = 0 then .error .zeroDivision else .ok (1 - t.1 / t.2)

/-- feature.py:859-915, 925-928 `Profile.compare`, `Profile.similarity`; the table is left out.  A
single aspect is iterated like a list of aspects, so `get` is called with a feature, which has no
`n_a`. -/
def World.similarity (W : World) (o1 o2 : Nat) (aspects : Aspects := .unspecified) :
    Except CompareErr Rat :=
  match W.objs[o1]?, W.objs[o2]? with
  | some p1, some p2 =>
    if p2.inv.id ≠ p1.inv.id then .ok 0
    else match aspects with
      | .unspecified => similarityOf (W.totals p1.inv o1 o2 p1.inv.aspects)
      | .many as => similarityOf (W.totals p1.inv o1 o2 as)
      | .one a => if a.aspect.members.isEmpty then .error .zeroDivision else .error .attributeError
  | _, _ => .error .attributeError

/-- feature.py:930-932 `Profile.has_feature` with the parents of the features given. -/
def World.profileHas (W : World) (parents : Nat → List Nat) (o : Nat) (value : Nat) : Bool :=
  (W.refs o).any fun r =>
    (W.content r).contains value || (W.content r).any (fun f => (parents f).contains value)

/-- feature.py:953-955 `MultiProfile.has_profile`. -/
def World.hasProfile (W : World) (j : Nat) (inv : FInv) : Bool :=
  (W.members j).any fun o =>
    match W.objs[o]? with
    | some p => p.inv.id == inv.id
    | none => false

/-- The object that a multi-profile keeps under an alias. -/
def World.lookup (W : World) (j : Nat) (alias : String) : Option Nat :=
  ((W.mps.getD j []).find? (fun q => q.1 == alias)).map (·.2)

/-- feature.py:991-1010 `MultiProfile.get` without default.  Without a profile for the inventory the
result is the profile `not_applicable` of the inventory, the object itself. -/
def World.mpGet (W : World) (j : Nat) (inv : FInv) : Option Nat :=
  if W.hasProfile j inv then W.lookup j inv.alias else some inv.na

/-- inventory.py:85-93 `add_item` for a profile object that is new. -/
def World.mpAdd (W : World) (j : Nat) (alias : String) (o : Nat) : World :=
  if Inv.ownFields.contains alias || (W.mps.getD j []).any (fun q => q.1 == alias) then W
  else { W with mps := W.mps.set j (W.mps.getD j [] ++ [(alias, o)]) }

/-- feature.py:957-989 `MultiProfile.new_profile`; the result is the copy. -/
def World.mpNew (W : World) (j : Nat) (o : Nat) : World × Nat :=
  match W.objs[o]? with
  | none => (W, o)
  | some p =>
    let c := W.copyProfile o
    if c.1.hasProfile j p.inv then
      match c.1.mpGet j p.inv with
      | some old => (c.1.updateProfile old [.profile c.2], c.2)
      | none => c
    else (c.1.mpAdd j p.inv.alias c.2, c.2)

/-- feature.py:937-938 `MultiProfile.__init__`. -/
def World.newMulti (W : World) : World × Nat := ({ W with mps := W.mps ++ [[]] }, W.mps.length)

/-- feature.py:1014-1015: the loop of `MultiProfile.copy`. -/
def copyMembers (k : Nat) : List Nat → World → World
  | [], W => W
  | o :: os, W =>
    let c := W.copyProfile o
    copyMembers k os (c.1.mpNew k c.2).1

/-- feature.py:1012-1016 `MultiProfile.copy`. -/
def World.mpCopy (W : World) (j : Nat) : World × Nat :=
  let n := W.newMulti
  (copyMembers n.2 (W.members j) n.1, n.2)

/-- utils/symbol.py:423-425: the loop over the aspects of one profile. -/
def addToAspects (p : Prof) (fs : List Nat) : List PAspect → World → World
  | [], W => W
  | a :: as, W =>
    let v := fs.filter (fun f => a.aspect.owned f)
    if v.isEmpty then addToAspects p fs as W
    else match p.find a.alias with
      | some r => addToAspects p fs as (W.setReplace r [.feat a.anyId] (v.map Arg.feat))
      | none => addToAspects p fs as W

/-- utils/symbol.py:419-425: the loop over the inventories of the features that the symbol has a
profile for. -/
def addToProfiles (fs : List Nat) : List Nat → World → World
  | [], W => W
  | o :: os, W =>
    match W.objs[o]? with
    | some p => addToProfiles fs os (addToAspects p fs p.inv.aspects W)
    | none => addToProfiles fs os W

/-- utils/symbol.py:385-425 `Symbol.add_features` for the symbol with multi-profile `j`. -/
def World.addFeatures (W : World) (j : Nat) (args : List Arg) : World :=
  addToProfiles (toSet (Arg.flatL W args)) (W.members j) W

/-- utils/symbol.py:382-383 `Symbol.has_feature`: `value_in` (feature.py:1050-1089) of a
multi-profile, which has no method `has_feature`; so only the last line of `value_in` matters. -/
def World.symbolHas (W : World) (j : Nat) (value : Nat) : Bool :=
  (Arg.flat W (.multi j)).contains value

/-- phonology/phonological_symbol.py:66-68 `PhonologicalSymbol.has_feature`: `value_in` of a set
with the features of the symbol and of its language; feature.py:298-302. -/
def World.phonHas (W : World) (parents : Nat → List Nat) (j : Nat) (lang : Arg) (value : Nat) : Bool :=
  let s := toSet (Arg.flatL W [.multi j, lang])
  s.contains value || s.any (fun f => (parents f).contains value)

end Nisaba.Feature
