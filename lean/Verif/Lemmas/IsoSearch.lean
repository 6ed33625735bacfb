import Lean.Elab.Command
import Std.Data.HashMap
import Verif.Lemmas.Iso
/-!
# Search for certificates

Nothing here is trusted: the search writes literals which `Cert.ok`, `Cert.full` and `pairsOk`
check in the kernel.
-/
namespace Nisaba.Seq

namespace Search
open Std

def balanced {α : Type} : Nat → List (Nat × α) → Tree α
  | 0, _ => .nil
  | n + 1, l =>
    match l.drop (l.length / 2) with
    | [] => .nil
    | (k, v) :: r => .node (balanced n (l.take (l.length / 2))) k v (balanced n r)

def ofList {α : Type} (l : List (Nat × α)) : Tree α :=
  balanced 64 (l.mergeSort fun a b => a.1 ≤ b.1)

def lcp : Str → Str → Str
  | a :: s, b :: t => if a == b then a :: lcp s t else []
  | _, _ => []

def dropPrefix : Str → Str → Option Str
  | [], t => some t
  | a :: s, b :: t => if a == b then dropPrefix s t else none
  | _, _ => none

def final (e : Entry) : Bool := e.st == 0 && e.pend.isEmpty

/-- The deterministic machine while it is explored. -/
structure Machine where
  byHead : HashMap (Nat × Nat) (List Arc)
  ids : HashMap (List Entry) Nat := {}
  rows : Array (List Entry × HashMap Nat (Option (Nat × Str × Nat))) := #[]
  late : Bool := false

def Machine.id (m : Machine) (S : List Entry) : Machine × Nat :=
  match m.ids[S]? with
  | some i => (m, i)
  | none =>
    ({ m with ids := m.ids.insert S m.rows.size, rows := m.rows.push (S, {}) }, m.rows.size)

def mkMachine (A : List Arc) (late : Bool) : Machine :=
  let by' := A.foldl (init := ({} : HashMap (Nat × Nat) (List Arc))) fun h a =>
    match a.inp with
    | [] => h
    | c :: _ => h.insert (a.src, c) (a :: (h.getD (a.src, c) []))
  (({ byHead := by', late := late } : Machine).id [⟨0, [], [], 0⟩]).1

def better (l : List Entry) (k : Entry) : List Entry :=
  match l.find? fun e => e.st == k.st && e.pend == k.pend with
  | none => k :: l
  | some e => if k.wt < e.wt then k :: l.filter (fun e => !(e.st == k.st && e.pend == k.pend)) else l

def entryKey (e : Entry) : List Nat := e.st :: e.pend

def Machine.succ (m : Machine) (S : List Entry) (c : Nat) : Option (Nat × Str × List Entry) :=
  let ks := S.flatMap fun e =>
    match e.pend with
    | [] => (m.byHead.getD (e.st, c) []).map fun a =>
        (⟨a.dst, a.inp.tail, e.out ++ a.out, e.wt + a.wt⟩ : Entry)
    | c' :: p => if c == c' then [⟨e.st, p, e.out, e.wt⟩] else []
  match ks.foldl better [] with
  | [] => none
  | e :: l =>
    let mw := l.foldl (fun w e => min w e.wt) e.wt
    let pre := l.foldl (fun p e => lcp p e.out) e.out
    let pre := if m.late && (e :: l).all (fun e => !e.pend.isEmpty) then [] else pre
    let S' := (e :: l).map fun e => (⟨e.st, e.pend, e.out.drop pre.length, e.wt - mw⟩ : Entry)
    some (mw, pre, S'.mergeSort fun a b => entryKey a ≤ entryKey b)

def Machine.step (m : Machine) (i c : Nat) : Machine × Option (Nat × Str × Nat) :=
  match m.rows[i]? with
  | none => (m, none)
  | some (S, nx) =>
    match nx[c]? with
    | some r => (m, r)
    | none =>
      let (m, r) := match m.succ S c with
        | none => (m, none)
        | some (w, p, S') => let (m, j) := m.id S'; (m, some (w, p, j))
      ({ m with rows := m.rows.modify i fun (S, nx) => (S, nx.insert c r) }, r)

/-- All rows, at most `fuel`. -/
def Machine.close (alpha : List Nat) : Nat → Nat → Machine → Machine
  | 0, _, m => m
  | fuel + 1, i, m =>
    if i < m.rows.size then
      Machine.close alpha fuel (i + 1) (alpha.foldl (fun m c => (m.step i c).1) m)
    else m

def Machine.walk (m : Machine) (j : Nat) (x : Str) : Machine × Option (Str × Nat) :=
  x.foldl (init := (m, some ([], j))) fun
    | (m, none), _ => (m, none)
    | (m, some (o, j)), c =>
      match m.step j c with
      | (m, none) => (m, none)
      | (m, some (_, p, k)) => (m, some (o ++ p, k))

structure PairState where
  T : Machine
  seen : HashSet (Nat × Nat × Str) := {}
  todo : List (Nat × Nat × Str) := []
  bad : List (Nat × Nat × Str × Nat) := []

def pairLoop (D : Machine) (ban : Nat → Bool) : Nat → PairState → PairState
  | 0, s => s
  | fuel + 1, s =>
    match s.todo with
    | [] => s
    | (i, j, rest) :: todo =>
      let s := { s with todo := todo }
      match D.rows[i]? with
      | none => s
      | some (S, nx) =>
        let s := nx.toList.foldl (init := s) fun s (c, r) =>
          match r with
          | none => s
          | some (_, p, i') =>
            if ban c then s else
            match s.T.walk j p with
            | (T, none) => { s with T := T, bad := (i, j, rest, c) :: s.bad }
            | (T, some (em, j')) =>
              let s := { s with T := T }
              match dropPrefix em (rest ++ [c]) with
              | none => { s with bad := (i, j, rest, c) :: s.bad }
              | some r =>
                if s.seen.contains (i', j', r) then s
                else { s with seen := s.seen.insert (i', j', r), todo := (i', j', r) :: s.todo }
        let s := (S.filter final).foldl (init := s) fun s e =>
          match s.T.walk j e.out with
          | (T, none) => { s with T := T, bad := (i, j, rest, 0) :: s.bad }
          | (T, some (em, j')) =>
            let s := { s with T := T }
            match T.rows[j']? with
            | none => s
            | some (S', _) =>
              match S'.filter final with
              | [e'] => if em ++ e'.out == rest then s
                  else { s with bad := (i, j, rest, 0) :: s.bad }
              | _ => { s with bad := (i, j, rest, 0) :: s.bad }
        pairLoop D ban fuel s

def toCert (A : List Arc) (m : Machine) : Cert :=
  let chars := (A.flatMap (·.inp)).eraseDups
  let groups := (A.zipIdx).foldl (init := (HashMap.ofList (chars.map fun c => (c, []))))
    fun (h : HashMap Nat (List (Nat × Arc))) (a, i) =>
      match a.inp with
      | [] => h
      | c :: _ => h.insert c ((i, a) :: h.getD c [])
  ⟨ofList (groups.toList.map fun (c, l) => (c, l.reverse)),
   ofList (m.rows.toList.zipIdx.map fun ((S, nx), i) =>
     (i, ⟨S, ofList (nx.toList.filterMap fun (c, r) => r.map fun r => (c, r))⟩))⟩

def toPairs (l : List (Nat × Nat × Str)) : Pairs :=
  let h := l.foldl (init := ({} : HashMap Nat (HashMap Nat (List Str)))) fun h (i, j, r) =>
    let g := h.getD i {}
    h.insert i (g.insert j (r :: g.getD j []))
  ofList (h.toList.map fun (i, g) => (i, ofList g.toList))

/-- Certificates for a list of arcs, for it read backwards, and for the two in a row. -/
def search (A : List Arc) (f : Nat → Str) (ban : Nat → Bool) (late : Bool) :
    Cert × Cert × Pairs × Nat × Nat × Nat × Nat :=
  let alpha := (A.flatMap (·.inp)).eraseDups
  let D := (mkMachine A late).close alpha 2000 0
  let B := A.map (swapArc f)
  let s := pairLoop D ban 20000
    { T := (mkMachine B late).close ((B.flatMap (·.inp)).eraseDups) 2000 0, seen := HashSet.ofList [(0, 0, [])], todo := [(0, 0, [])] }
  (toCert A D, toCert B s.T, toPairs s.seen.toList,
    D.rows.size, s.T.rows.size, s.seen.size, s.bad.length)

/-! ## Literals -/
open Lean

def natE (n : Nat) : Expr := mkRawNatLit n
def natT : Expr := mkConst ``Nat
def listE (ty : Expr) : List Expr → Expr
  | [] => mkApp (mkConst ``List.nil [0]) ty
  | a :: l => mkApp3 (mkConst ``List.cons [0]) ty a (listE ty l)
def strT : Expr := mkApp (mkConst ``List [0]) natT
def strE (s : Str) : Expr := listE natT (s.map natE)
def prodT (a b : Expr) : Expr := mkApp2 (mkConst ``Prod [0, 0]) a b
def pairE (a b x y : Expr) : Expr := mkApp4 (mkConst ``Prod.mk [0, 0]) a b x y
def treeE {α : Type} (ty : Expr) (f : α → Expr) : Tree α → Expr
  | .nil => mkApp (mkConst ``Tree.nil) ty
  | .node l k v r =>
    mkApp5 (mkConst ``Tree.node) ty (treeE ty f l) (natE k) (f v) (treeE ty f r)
def treeT (ty : Expr) : Expr := mkApp (mkConst ``Tree) ty
def listT (ty : Expr) : Expr := mkApp (mkConst ``List [0]) ty
def arcT : Expr := mkConst ``Arc
def arcE (a : Arc) : Expr :=
  mkApp5 (mkConst ``Arc.mk) (natE a.src) (strE a.inp) (strE a.out) (natE a.wt) (natE a.dst)
def entryE (e : Entry) : Expr :=
  mkApp4 (mkConst ``Entry.mk) (natE e.st) (strE e.pend) (strE e.out) (natE e.wt)
def stepT : Expr := prodT natT (prodT strT natT)
def stepE (s : Nat × Str × Nat) : Expr :=
  pairE natT (prodT strT natT) (natE s.1) (pairE strT natT (strE s.2.1) (natE s.2.2))
def rowE (r : Row) : Expr :=
  mkApp2 (mkConst ``Row.mk) (listE (mkConst ``Entry) (r.entries.map entryE)) (treeE stepT stepE r.next)
def groupE (l : List (Nat × Arc)) : Expr :=
  listE (prodT natT arcT) (l.map fun p => pairE natT arcT (natE p.1) (arcE p.2))
def certE (C : Cert) : Expr :=
  mkApp2 (mkConst ``Cert.mk) (treeE (listT (prodT natT arcT)) groupE C.groups)
    (treeE (mkConst ``Row) rowE C.rows)
def pairsE (P : Pairs) : Expr :=
  treeE (treeT (listT strT)) (treeE (listT strT) fun l => listE strT (l.map strE)) P

def addLit (n : Name) (type value : Expr) : CoreM Unit :=
  addDecl (.defnDecl
    { name := n, levelParams := [], type := type, value := value, hints := .abbrev, safety := .safe })

/-- Adds `n.D`, `n.T` and `n.P`. -/
def addCerts (n : Name) (A : List Arc) (f : Nat → Str) (ban : Nat → Bool) (late : Bool) :
    CoreM Unit := do
  let (D, T, P, a, b, c, e) := search A f ban late
  addLit (n ++ `D) (mkConst ``Cert) (certE D)
  addLit (n ++ `T) (mkConst ``Cert) (certE T)
  addLit (n ++ `P) (treeT (treeT (listT strT))) (pairsE P)
  if e != 0 then logError m!"{n}: {a} rows, {b} rows back, {c} pairs, {e} bad"

end Search
end Nisaba.Seq
