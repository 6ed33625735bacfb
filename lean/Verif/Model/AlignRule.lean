import Verif.Model.Expression
import Verif.Model.NtFst
/-!
# Model of the class `Alignment` in nisaba/scripts/natural_translit/utils/expression.py

The expressions of both sides and of the contexts are those of `Verif.Model.Expression`.  Floats are an
arbitrary type, operations an arbitrary type with a base cost.  The printed forms `string` and `__str__` are
in `Verif.Model.ExprStr`.
-/
namespace Nisaba.AlignRule

open Nisaba.Expr

/-- An argument of type `sym.Item`: a symbol that is no `Atomic`, or an expression. -/
inductive Item
  | symbol (n : Nat)
  | expr (x : Ex)

/-- The argument `applied_cost`: not given, a float, an int. -/
inductive CostArg (F : Type)
  | unspecified
  | float (c : F)
  | int (n : Int)

/-- expression.py:434-444 `AlignmentSource`; the sources that are only labels are numbers. -/
inductive Source
  | constant
  | native
  | unspecified
  | other (n : Nat)
  deriving DecidableEq

/-- expression.py:433-479 `Alignment`.  `name` is the attribute `alias`.  A context that is the
constant `Alignment.ANY` has `ANY` on both sides. -/
structure Alignment (F Op : Type) where
  name : Str
  left : Ex
  right : Ex
  preceding : Al
  following : Al
  fromBos : Bool
  toEos : Bool
  operation : Op
  priority : Int
  appliedCost : F
  source : Source

/-- Operations: `base_cost` as a float (operation.py:93-101), the printed form of `match`, and the three of
operation.py:211-224 that are defaults. -/
structure Ops (F Op : Type) where
  baseCost : Op → F
  text : Op → Str
  alignable : Op
  deletion : Op
  insertion : Op
  interchangeable : Op
  unassigned : Op
  error : Op

variable {F Op : Type}

/-- expression.py:350-353 `_set_side`; type_op.py:267-272 `type_check` keeps every `Expression`. -/
def setSide : Item → Ex
  | .symbol n => .sym n
  | .expr x => x

/-- expression.py:508-510: `type_check(applied_cost, float(base_cost))` keeps only instances of `float`. -/
def setCost (base : F) : CostArg F → F
  | .float c => c
  | _ => base

/-- type_op.py:50-57 `_set_alias`; `gen` is the text made of the class and the hash. -/
def setAlias (gen name : Str) : Str := if name = [] then gen else name

/-- expression.py:481-512 `Alignment.__init__`. -/
def make (ops : Ops F Op) (gen name : Str) (left right pl pr fl fr : Item) (fromBos toEos : Bool) (operation : Op)
    (priority : Int) (cost : CostArg F) (source : Source) : Alignment F Op :=
  { name := setAlias gen name
    left := setSide left, right := setSide right
    preceding := ⟨setSide pl, setSide pr⟩, following := ⟨setSide fl, setSide fr⟩
    fromBos := fromBos, toEos := toEos, operation := operation, priority := priority
    appliedCost := setCost (ops.baseCost operation) cost, source := source }

/-- `ANY` as an argument. -/
def anyItem : Item := .expr .any

/-- `Alignment.ANY` as a context. -/
def anyContext : Al := ⟨.any, .any⟩

/-- expression.py:562-570 `simple`, and `>>` of an expression and an item (expression.py:127-128). -/
def simple (ops : Ops F Op) (gen : Str) (left right : Item) : Alignment F Op :=
  { make ops gen [] left right anyItem anyItem anyItem anyItem false false ops.unassigned 0 .unspecified
      .unspecified with
    preceding := anyContext, following := anyContext }

/-- expression.py:381-382 `_BaseAlignment.is_any`. -/
def isAnyAl (a : Al) : Bool := isAny a.left && isAny a.right

/-- What a rule is given besides its name and its sides (expression.py:572-585). -/
structure Args (F Op : Type) where
  preceding : Al := anyContext
  following : Al := anyContext
  fromBos : Bool := false
  toEos : Bool := false
  operation : Op
  priority : Int := 0
  cost : CostArg F := .unspecified
  source : Source := .native

/-- expression.py:601-604: a context that is any is replaced by the constant. -/
def setContext (a : Al) : Al := if isAnyAl a then anyContext else a

/-- expression.py:572-605 `rule`; of the argument `alignment` only the two sides are read. -/
def rule (ops : Ops F Op) (gen name : Str) (left right : Ex) (a : Args F Op) : Alignment F Op :=
  let r := make ops gen name (.expr left) (.expr right) (.expr a.preceding.left) (.expr a.preceding.right)
    (.expr a.following.left) (.expr a.following.right) a.fromBos a.toEos a.operation a.priority a.cost a.source
  { r with preceding := setContext r.preceding, following := setContext r.following }

/-- Python `left >> right`: only an expression has the operator, on another symbol it is a `TypeError`
(`none`).  The sides of the alignment (expression.py:127-128). -/
def shift (left right : Item) : Option (Ex × Ex) :=
  match left with
  | .symbol _ => none
  | .expr x => some (x, setSide right)

/-- expression.py:607-632 `deletion`. -/
def deletion (ops : Ops F Op) (gen name : Str) (left : Item) (a : Args F Op) : Option (Alignment F Op) :=
  (shift left (.expr (.sym eps))).map fun s => rule ops gen name s.1 s.2 a

/-- expression.py:634-659 `insertion`. -/
def insertion (ops : Ops F Op) (gen name : Str) (right : Item) (a : Args F Op) : Option (Alignment F Op) :=
  (shift (.expr (.sym eps)) right).map fun s => rule ops gen name s.1 s.2 a

/-- expression.py:661-691 `interchangeable`. -/
def interchangeable (ops : Ops F Op) (gen name : Str) (left right : Ex) (a : Args F Op) :
    Option (Alignment F Op × Alignment F Op) :=
  (shift (.expr left) (.expr right)).bind fun s => (shift (.expr right) (.expr left)).map fun t =>
    (rule ops gen (name ++ a!"_l2r") s.1 s.2 a, rule ops gen (name ++ a!"_r2l") t.1 t.2 a)

/-- `copy` of an expression: expression.py:115-118, 178-179, 244-245, 318-319. -/
def copyEx : Ex → Ex
  | .sym n => .sym n
  | .any => .any
  | .plain => .plain
  | .cat l => mkCat l
  | .or l => mkOr l

/-- expression.py:693-707 `Alignment.copy`. -/
def copy (ops : Ops F Op) (gen : Str) (r : Alignment F Op) : Alignment F Op :=
  if r.source = .constant then r
  else rule ops gen r.name (copyEx r.left) (copyEx r.right)
    { preceding := ⟨copyEx r.preceding.left, copyEx r.preceding.right⟩
      following := ⟨copyEx r.following.left, copyEx r.following.right⟩
      fromBos := r.fromBos, toEos := r.toEos, operation := r.operation, priority := r.priority
      cost := .float r.appliedCost, source := r.source }

/-- expression.py:724-738 `_constants`: `ANY`, `EPS` and `NOR`. -/
def constants (ops : Ops F Op) : Alignment F Op × Alignment F Op × Alignment F Op :=
  let c (name : Str) (side : Item) (op : Op) : Alignment F Op :=
    { make ops [] name side side anyItem anyItem anyItem anyItem false false op 0 .unspecified .unspecified with
      source := .constant, preceding := anyContext, following := anyContext }
  (c a!"any" anyItem ops.unassigned, c a!"eps" (.expr (.sym eps)) ops.unassigned,
    c a!"nor" (.expr (.sym nor)) ops.error)

/-- expression.py:709-710, operation.py:106-109 `is_assigned`. -/
def isAssigned [DecidableEq Op] (ops : Ops F Op) (r : Alignment F Op) : Bool :=
  !(r.operation == ops.unassigned || r.operation == ops.error)

/-- expression.py:711-721 `context_matches`. -/
def matchesIn (r : Alignment F Op) (p f : Al) : Bool :=
  contextMatches r.preceding r.following r.fromBos r.toEos p f

/-- The items of an expression: an `Atomic` holds itself. -/
def items : Ex → List Ex
  | .sym n => [.sym n]
  | .any => []
  | .plain => []
  | .cat l => l
  | .or l => l

/-- expression.py:553-560 `tsv_row`; `text` gives the text of an item, `fmt` is `str` of a float. -/
def tsvRow (ops : Ops F Op) (text : Ex → Str) (fmt : F → Str) (r : Alignment F Op) : Str :=
  [9].intercalate [r.name, (items r.left).flatMap text, (items r.right).flatMap text, ops.text r.operation,
    fmt r.appliedCost]

end Nisaba.AlignRule
