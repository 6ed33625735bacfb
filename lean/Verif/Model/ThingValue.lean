import Verif.Model.Tables
/-!
# Model of natural_translit/utils/type_op.py: values of things and their comparison

Logging (`log_op.py`) is left out: it returns its first argument.
-/
namespace Nisaba.ThingValue

/-- Python objects as far as type_op.py tells them apart: strings, Fsts, `Nothing` constants,
`Thing`s, and objects of other classes.  A `Nothing` and a `Thing` have an identity.  The value of a
`Thing` is `none` if it is the `Thing` itself (type_op.py:48). -/
inductive Obj (K F : Type) where
  | str (s : Str)
  | other (k : K)
  | fst (f : F)
  | nothing (id : Nat)
  | thing (id : Nat) (alias_ text : Str) (value : Option (Obj K F))

/-- What the model leaves to Python and Pynini: `==` on objects of other classes, their attributes,
`Fst.string()` (`none` is `FstOpError`), `pyn.equal` on two Fsts, and the Fst compiled from a
string. -/
structure Env (K F : Type) where
  kEq : K → K → Bool
  attr : Obj K F → Str → Option (Obj K F)
  string : F → Option Str
  equal : F → F → Bool
  compile : Str → F

variable {K F : Type}

/-- `isinstance(obj, Nothing)`. -/
def isNothing : Obj K F → Bool
  | .nothing _ => true
  | _ => false

/-- Ascii text as a string. -/
def lit (s : String) : Str := s.toList.map Char.toNat

/-- `getattr(obj, name, obj)` (type_op.py:153-155).  A `Thing` has the attributes of
type_op.py:45-48; for other names and objects it is left to `attr`. -/
def getAttr (env : Env K F) (o : Obj K F) (name : Str) : Obj K F :=
  match o with
  | .thing id al tx v =>
    if name = lit "alias" then .str al
    else if name = lit "text" then .str tx
    else if name = lit "value" then v.getD (.thing id al tx v)
    else (env.attr o name).getD o
  | o => (env.attr o name).getD o

/-- type_op.py:109-157 `Thing.__init__` with a non-empty alias.  `text` is the final text, which
does not matter here.  `id` is the identity of the new object. -/
def mkThing (env : Env K F) (id : Nat) (al text : Str) (valueFrom : Obj K F) (fromAttribute : Str) :
    Obj K F :=
  .thing id al text (if !isNothing valueFrom then some (getAttr env valueFrom fromAttribute) else none)

/-- type_op.py:259-261 `value_of`. -/
def valueOf : Obj K F → Obj K F
  | .thing id al tx v => v.getD (.thing id al tx v)
  | o => o

/-- type_op.py:278-289 `is_string`. -/
def isString (env : Env K F) : Obj K F → Bool
  | .str _ => true
  | .fst f => (env.string f).isSome
  | _ => false

/-- Error raised by Python. -/
inductive Err where
  | fstOpError
  | typeError
  deriving DecidableEq, Repr

/-- type_op.py:291-294 `str_of_fstlike` on a string or an Fst. -/
def strOfFstlike (env : Env K F) : Obj K F → Except Err Str
  | .str s => .ok s
  | .fst f => match env.string f with
    | some s => .ok s
    | none => .error .fstOpError
  | _ => .error .typeError

/-- `isinstance(obj, pyn.Fst)`. -/
def isFst : Obj K F → Bool
  | .fst _ => true
  | _ => false

/-- `isinstance(obj, FstLike)` (type_op.py:163). -/
def isFstLike : Obj K F → Bool
  | .fst _ => true
  | .str _ => true
  | _ => false

/-- `pyn.equal` on Fsts and strings, which it compiles. -/
def pynEqual (env : Env K F) : Obj K F → Obj K F → Except Err Bool
  | .fst f, .fst g => .ok (env.equal f g)
  | .fst f, .str s => .ok (env.equal f (env.compile s))
  | .str s, .fst f => .ok (env.equal (env.compile s) f)
  | .str s, .str t => .ok (env.equal (env.compile s) (env.compile t))
  | _, _ => .error .typeError

/-- Python's `==`: by identity on `Thing`s and `Nothing`s, `pyn.equal` if one side is an Fst, which
raises an error unless the other one is an Fst or a string (comment at type_op.py:310). -/
def pyEq (env : Env K F) : Obj K F → Obj K F → Except Err Bool
  | .fst f, o => pynEqual env (.fst f) o
  | o, .fst f => pynEqual env o (.fst f)
  | .str s, .str t => .ok (s == t)
  | .other k, .other l => .ok (env.kEq k l)
  | .nothing i, .nothing j => .ok (i == j)
  | .thing i _ _ _, .thing j _ _ _ => .ok (i == j)
  | _, _ => .ok false

/-- type_op.py:297-330 `is_equal`. -/
def isEqual (env : Env K F) (a b : Obj K F) : Except Err Bool :=
  if isFst a || isFst b then
    if !isFstLike a || !isFstLike b then .ok false
    else if isString env a && isString env b then
      match strOfFstlike env a, strOfFstlike env b with
      | .ok s, .ok t => .ok (s == t)
      | .error e, _ => .error e
      | _, .error e => .error e
    else pynEqual env a b
  else if isNothing (valueOf a) || isNothing (valueOf b) then .ok false
  else match pyEq env (valueOf a) (valueOf b) with
    | .ok r => .ok r
    | .error e => .error e

end Nisaba.ThingValue
