import Verif.Model.Inventory
/-!
# Model of nisaba/scripts/natural_translit/utils/operation.py

Operations are objects with identity: an operation is its number in the list of all operations
made so far.  Costs (`float`) are rational numbers.
-/
namespace Nisaba.Operation
open Nisaba.Inv

/-- operation.py:93-101 `Operation.__init__`: the attributes that the properties mention.
`mat`, `par` and `unx` are `match`, `partial` and `unexpected`. -/
structure Oper where
  alias : String
  cost : Rat
  index : Nat
  mat : Nat
  par : Nat
  unx : Nat
  deriving Repr

/-- State of an `Operation.Inventory` (operation.py:117-131) together with all operations made so
far.  `indexDict` is `_index_dict` in insertion order. -/
structure OpInv where
  inv : Inventory Nat
  pre : Nat
  indexDict : List (Nat × Nat)
  heap : List Oper

/-- operation.py:127-131 `Operation.Inventory.__init__` without operations.  Every value that is
added is an `Operation`. -/
def OpInv.new (pre : Nat) (heap : List Oper := []) : OpInv :=
  { inv := Inventory.new (fun _ => true) ["prefix", "_index_dict"], pre := pre, indexDict := [],
    heap := heap }

/-- operation.py:133-134 `index_lookup`; `none` is the default `Operation.COMMON.error`. -/
def OpInv.indexLookup (s : OpInv) (i : Nat) : Option Nat :=
  (s.indexDict.find? (fun p => p.1 == i)).map (·.2)

/-- `d[k] = v`. -/
def put (d : List (Nat × Nat)) (k v : Nat) : List (Nat × Nat) :=
  if d.any (fun p => p.1 == k) then d.map (fun p => if p.1 == k then (k, v) else p)
  else d ++ [(k, v)]

/-- operation.py:136-151 `_next_index`. -/
def OpInv.nextIndex (s : OpInv) : Except PyErr Nat :=
  match s.inv.method "_next_index" with
  | .error e => .error e
  | .ok () =>
  if s.inv.items.length = 0 then .ok (s.pre + 1)
  else if s.inv.items.length = 1 then .ok (s.pre + 2)
  else match s.indexDict.map (·.1) with
    | [] => .error .valueError
    | k :: ks =>
      let index := ks.foldl max k + 1
      .ok (if index % 10 ≠ 0 then index else index + 1)

/-- operation.py:153-159 `_make_operation`.  Returns the state and the new operation. -/
def OpInv.makeOperation (s : OpInv) (alias : String) (cost : Rat) : Except PyErr (OpInv × Nat) :=
  match s.inv.method "_make_operation" with
  | .error e => .error e
  | .ok () =>
  match s.nextIndex with
  | .error e => .error e
  | .ok i =>
    let id := s.heap.length
    let heap := s.heap ++ [{ alias := alias, cost := cost, index := i, mat := id, par := id, unx := id }]
    match s.inv.addItem alias id with
    | (_, .error e) => .error e
    | (inv, .ok true) =>
      .ok ({ s with inv := inv, heap := heap, indexDict := put s.indexDict i id }, id)
    | (inv, .ok false) => .ok ({ s with inv := inv, heap := heap }, id)

/-- operation.py:84 `UNEXPECTED_PENALTY`. -/
def unexpectedPenalty : Rat := 3 / 4

/-- Assignments of operation.py:185-191. -/
def link (heap : List Oper) (m p u up : Nat) : List Oper :=
  let heap := heap.modify m (fun o => { o with par := p, unx := u })
  let heap := heap.modify p (fun o => { o with mat := m, unx := up })
  let heap := heap.modify u (fun o => { o with mat := m, par := up })
  heap.modify up (fun o => { o with mat := m })

/-- Body of the loop of `from_args` (operation.py:170-191). -/
def OpInv.addArg (s : OpInv) (alias : String) (cost : Rat) : Except PyErr OpInv :=
  match s.makeOperation alias cost with
  | .error e => .error e
  | .ok (s1, m) =>
  match s1.makeOperation ("partial_" ++ alias) cost with
  | .error e => .error e
  | .ok (s2, p) =>
  match s2.makeOperation ("unexpected_" ++ alias) (cost + unexpectedPenalty) with
  | .error e => .error e
  | .ok (s3, u) =>
  match s3.makeOperation ("unexpected_partial_" ++ alias) (cost + unexpectedPenalty) with
  | .error e => .error e
  | .ok (s4, up) => .ok { s4 with heap := link s4.heap m p u up }

/-- Loop of `from_args` (operation.py:170-191). -/
def OpInv.addArgs (s : OpInv) : List (String × Rat) → Except PyErr OpInv
  | [] => .ok s
  | (a, c) :: args =>
    match s.addArg a c with
    | .error e => .error e
    | .ok s' => s'.addArgs args

/-- operation.py:161-192 `from_args`. -/
def fromArgs (pre : Nat) (args : List (String × Rat)) : Except PyErr OpInv :=
  (OpInv.new pre).addArgs args

/-- operation.py:194-196 `add_operations`: only `add_item`, nothing is put into `_index_dict`. -/
def OpInv.addOperations (s : OpInv) : List Nat → Except PyErr OpInv
  | [] => .ok s
  | o :: os =>
    match s.inv.addItem ((s.heap[o]?.map (·.alias)).getD "") o with
    | (_, .error e) => .error e
    | (inv, .ok _) => { s with inv := inv }.addOperations os

/-- operation.py:211-224 `Operation.COMMON`. -/
def commonArgs : List (String × Rat) :=
  [("alignable", 0), ("boundary", 1 / 8), ("deletion", 1), ("error", 100), ("identity", 1 / 10),
   ("insertion", 1), ("interchangeable", 1 / 10), ("punctuation", 1 / 4), ("substitution", 5 / 4),
   ("unassigned", 10)]

end Nisaba.Operation
