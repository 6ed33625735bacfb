/-!
# Model of nisaba/scripts/natural_translit/utils/lattice.py

FSTs and nodes are Python objects with identity: an object is its number in a list.  Of an FST only
the number of its states matters (`add_state` returns the old number); arcs are left out.  Default
values of parameters are objects made once, when the function is defined.
-/
namespace Nisaba.Lattice

/-- lattice.py:22-63 `Node`: coordinates, FST and state (`none` is `ty.UNASSIGNED`). -/
structure Node where
  x : Int
  y : Int
  fst : Nat
  state : Option Nat
  deriving DecidableEq, Repr

/-- All FSTs (number of states) and all nodes made so far. -/
structure World where
  fsts : List Nat
  nodes : List Node
  deriving DecidableEq, Repr

/-- The default FST of `Node.__init__` (lattice.py:44). -/
def nodeDefaultFst : Nat := 0

/-- The default FST of `Lattice.__init__` (lattice.py:81). -/
def latticeDefaultFst : Nat := 1

/-- The default error node of `Lattice.__init__` (lattice.py:82). -/
def defaultError : Nat := 0

/-- After the module has been loaded: the two default FSTs and the default error node. -/
def World.initial : World :=
  { fsts := [0, 0], nodes := [{ x := -1, y := -1, fst := nodeDefaultFst, state := none }] }

/-- lattice.py:65-102 `Lattice`.  The node at `(x, y)` is number `base + y * width + x`
(`_nodes[y][x]`, filled row by row). -/
structure Lat where
  fst : Nat
  width : Nat
  height : Nat
  base : Nat
  error : Nat
  deriving DecidableEq, Repr

/-- `pyn.Fst()`. -/
def World.newFst (w : World) : World × Nat :=
  ({ w with fsts := w.fsts ++ [0] }, w.fsts.length)

/-- lattice.py:38-50 `Node.__init__` as called by a user (an error node). -/
def World.newNode (w : World) (x y : Int := -1) (fst : Nat := nodeDefaultFst) : World × Nat :=
  ({ w with nodes := w.nodes ++ [{ x := x, y := y, fst := fst, state := none }] }, w.nodes.length)

/-- `node.state = fst.add_state()`. -/
def World.assign (w : World) (fst node : Nat) : World :=
  { fsts := w.fsts.modify fst (· + 1),
    nodes := w.nodes.modify node (fun n => { n with state := some ((w.fsts[fst]?).getD 0) }) }

/-- The new nodes of `Lattice.__init__` (lattice.py:90-93, 136-143), row by row. -/
def gridNodes (width height fst : Nat) : List Node :=
  (List.range height).flatMap (fun (y : Nat) => (List.range width).map (fun (x : Nat) =>
    { x := (x : Int), y := (y : Int), fst := fst, state := none }))

/-- Loop of lattice.py:99-102. -/
def World.populate (w : World) (fst : Nat) : List Nat → World
  | [] => w
  | n :: ns => (w.assign fst n).populate fst ns

/-- lattice.py:76-102 `Lattice.__init__`. -/
def World.newLattice (w : World) (width height : Nat) (fst : Nat := latticeDefaultFst)
    (error : Nat := defaultError) (populate : Bool := false) : World × Lat :=
  let base := w.nodes.length
  let w := { w with nodes := w.nodes ++ gridNodes width height fst }
  let w := { w with nodes := w.nodes.modify error (fun n => { n with fst := fst }) }
  let w := if ((w.nodes[error]?).bind (·.state)).isSome then w else w.assign fst error
  let w := if populate then w.populate fst (List.range' base (width * height)) else w
  (w, { fst := fst, width := width, height := height, base := base, error := error })

/-- lattice.py:145-159 `node(x, y)`. -/
def Lat.node (l : Lat) (x y : Int) : Nat :=
  if 0 ≤ x ∧ x < l.width ∧ 0 ≤ y ∧ y < l.height then l.base + y.toNat * l.width + x.toNat
  else l.error

/-- lattice.py:161-180 `state(x, y)`: the world afterwards and the state. -/
def World.state (w : World) (l : Lat) (x y : Int) : World × Nat :=
  let n := l.node x y
  match (w.nodes[n]?).bind (·.state) with
  | some s => (w, s)
  | none => (w.assign l.fst n, (w.fsts[l.fst]?).getD 0)

end Nisaba.Lattice
