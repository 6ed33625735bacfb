/-!
# Model of nisaba/scripts/natural_translit/utils/expression.py and of the class `Item` in symbol.py

Expressions are values here: a `Cat` or `Or` stores copies of its arguments (or its arguments, when
they are `any`), and an expression that is changed after it was given to another one is not followed.
Symbols are Python objects and equal only if they are the same object, so a symbol is its identity.
Alignments, texts, aliases and the FST side are left out.
-/
namespace Nisaba.Expr

/-- Control symbols (symbol.py:718-745) are the identities below 7, `eps` is the first of them. -/
def eps : Nat := 0
def isControl (n : Nat) : Bool := n < 7

/-- expression.py: `Expression.ANY`, an `Atomic` of a symbol, any other plain `Expression`, `Cat`,
`Or`. -/
inductive Ex
  | sym (n : Nat)
  | any
  | plain
  | cat (items : List Ex)
  | or (items : List Ex)

/-- An element of a symbol list: a symbol, or the new `nor` that an empty `Or` makes each time
(expression.py:332-333). -/
inductive Tok
  | sy (n : Nat)
  | fresh
  deriving DecidableEq, Repr

/-- Python `==` of two elements of different calls: identity, so a new `nor` equals nothing. -/
def Tok.eq : Tok → Tok → Bool
  | .sy a, .sy b => a == b
  | _, _ => false

/-- Python `==` of two lists. -/
def eqL : List Tok → List Tok → Bool
  | [], [] => true
  | a :: as, b :: bs => a.eq b && eqL as bs
  | _, _ => false

/-- `l in lists`. -/
def memL (l : List Tok) (ls : List (List Tok)) : Bool := ls.any (fun m => eqL l m)

/-- expression.py:218-225 `Cat._add_sym_lists`. -/
def addSymLists (l₁ l₂ : List Tok) : List Tok :=
  if eqL l₁ [.sy eps] then l₂ else if eqL l₂ [.sy eps] then l₁ else l₁ ++ l₂

/-- expression.py:237-241, the inner loop: `n` times take the first list away and append its
concatenations.  (`pop(0)` of an empty list, an `IndexError`, is not reached.) -/
def catLoop (item : List (List Tok)) : Nat → List (List Tok) → List (List Tok)
  | 0, acc => acc
  | _ + 1, [] => []
  | n + 1, l :: acc => catLoop item n (acc ++ item.map (addSymLists l))

mutual
/-- `symbols()`: symbol.py:70-77 and 343-344, expression.py:227-242 and 321-334. -/
def symbols : Ex → List (List Tok)
  | .sym n => [[.sy n]]
  | .any => []
  | .plain => []
  | .cat items => catSymbols [[.sy eps]] items
  | .or [] => [[.fresh]]
  | .or (x :: xs) => symbols x ++ orSymbols xs
/-- expression.py:235-241, the outer loop. -/
def catSymbols (acc : List (List Tok)) : List Ex → List (List Tok)
  | [] => acc
  | x :: xs => catSymbols (catLoop (symbols x) acc.length acc) xs
/-- expression.py:334. -/
def orSymbols : List Ex → List (List Tok)
  | [] => []
  | x :: xs => symbols x ++ orSymbols xs
end

mutual
/-- expression.py:93-96 and symbol.py:67-68 `state_count`. -/
def stateCount : Ex → Nat
  | .sym _ => 1
  | .any => 0
  | .plain => 0
  | .cat items => stateCounts items
  | .or items => stateCounts items
def stateCounts : List Ex → Nat
  | [] => 0
  | x :: xs => stateCount x + stateCounts xs
end

/-- expression.py:98-103 `is_any`. -/
def isAny : Ex → Bool
  | .sym _ => false
  | .any => true
  | .plain => false
  | .cat [x] => isAny x
  | .cat _ => false
  | .or [x] => isAny x
  | .or _ => false

/-- symbol.py:85-110 `accepts`, `is_equivalent`. -/
def accepts (self other : Ex) (equivalent : Bool := false) : Bool :=
  if isAny self || isAny other then
    (equivalent && isAny self && isAny other) || !equivalent
  else
    let ss := symbols self
    let os := symbols other
    if ss.length = 0 || ss.length < os.length || (equivalent && ss.length ≠ os.length) then false
    else os.all (fun l => memL l ss)

/-- `Expression.ANY in self`. -/
def hasAny : List Ex → Bool
  | [] => false
  | .any :: _ => true
  | _ :: xs => hasAny xs

/-- expression.py:303-315, the branches of the loop of `Or.add` after the tests for `any`; `s` are
the items so far and `k` is `_add_item(item)`.  `_update(item)` empties the items and adds again; in
that second round the item cannot accept the empty `Or` (`accepts_empty_or` in
`Verif.Lemmas.Expression`), so the recursion ends. -/
def orStep (s : List Ex) (item : Ex) (k : List Ex → List Ex) : List Ex :=
  let update := if accepts (.or []) item then [] else k []
  if accepts (.or s) item then
    if accepts item (.or s) && stateCount item < stateCount (.or s) then update else s
  else if accepts item (.or s) then update
  else k s

mutual
/-- expression.py:209-215 `Cat.add` of one item, with `_add_item` (expression.py:58-84) and
`copy` (expression.py:111-114, 244-245, 318-319). -/
def addCat (s : List Ex) : Ex → List Ex
  | .any => s ++ [.any]
  | .sym n => if isControl n then s else s ++ [.sym n]
  | .plain => s ++ [.plain]
  | .cat items => if isAny (.cat items) then s ++ [.cat items] else addCats s items
  | .or [] => s ++ [.or []]
  | .or [x] => if isAny x then s ++ [.or [x]] else addCat s x
  | .or (x :: y :: xs) => s ++ [.or (addOrs [] (x :: y :: xs))]
/-- The loop of `Cat.add`. -/
def addCats (s : List Ex) : List Ex → List Ex
  | [] => s
  | x :: xs => addCats (addCat s x) xs
/-- `Or.add` of one item that is not `any`, to items without `ANY`. -/
def addOr (s : List Ex) : Ex → List Ex
  | .any => s
  | .sym n => orStep s (.sym n) (fun s => if isControl n then s else s ++ [.sym n])
  | .plain => orStep s .plain (fun s => s ++ [.plain])
  | .or items => orStep s (.or items) (fun s => addOrs s items)
  | .cat [] => orStep s (.cat []) (fun s => s ++ [.cat []])
  | .cat [x] => orStep s (.cat [x]) (fun s => if hasAny s then s else addOr s x)
  | .cat (x :: y :: xs) =>
    orStep s (.cat (x :: y :: xs)) (fun s => s ++ [.cat (addCats [] (x :: y :: xs))])
/-- expression.py:294-316 `Or.add`, the loop with the tests for `any`. -/
def addOrs (s : List Ex) : List Ex → List Ex
  | [] => s
  | x :: xs =>
    if hasAny s then s
    else if isAny x then [x]
    else addOrs (addOr s x) xs
end

/-- `Cat(*items)` and `Or(*items)`, expression.py:199-201 and 257-259. -/
def mkCat (items : List Ex) : Ex := .cat (addCats [] items)
def mkOr (items : List Ex) : Ex := .or (addOrs [] items)

/-- symbol.py:175-184, `while search_in`: `fromStart` is `match_tail`. -/
def searchIn (target : List Tok) (both fromStart : Bool) : Nat → List Tok → Bool
  | 0, _ => false
  | _ + 1, [] => false
  | n + 1, l =>
    if eqL l target then true
    else if both then false
    else searchIn target both fromStart n (if fromStart then l.drop 1 else l.dropLast)

/-- symbol.py:173-192, `while symbol_list`. -/
def searchList (target : List Tok) (head tail : Bool) : Nat → List Tok → Bool
  | 0, _ => false
  | _ + 1, [] => false
  | n + 1, l =>
    if searchIn target (head && tail) tail l.length l then true
    else if head || tail then false
    else searchList target head tail n (l.drop 1)

/-- Index of `nor` among the control symbols. -/
def nor : Nat := 5

/-- symbol.py:112-193 `contains_symbol_list`. -/
def containsSymbolList (self : Ex) (target : List Tok) (head tail : Bool) : Bool :=
  if eqL target [.sy eps] then true
  else if eqL target [.sy nor] then false
  else if isAny self then true
  else (symbols self).any (fun l => searchList target head tail l.length l)

/-- `is_nor`, expression.py:113-114, symbol.py:64-65 and 352-353. -/
def isNor : Ex → Bool
  | .sym n => n == nor
  | _ => false

/-- symbol.py:195-227 `contains`. -/
def contains (self other : Ex) (head tail : Bool) : Bool :=
  if isAny self || isAny other then !isNor self && !isNor other
  else (symbols other).any (fun l => containsSymbolList self l head tail)

/-- Python truth value of an item: the number of its items, an `Atomic` holds itself. -/
def truthy : Ex → Bool
  | .sym _ => true
  | .any => false
  | .plain => false
  | .cat l => !l.isEmpty
  | .or l => !l.isEmpty

/-- symbol.py:236-237 `matches`, 245-248 `head_matches`, 250-251 `is_prefix`, 253-256
`tail_matches`, 258-259 `is_suffix`. -/
def matchesAll (self other : Ex) : Bool := contains self other true true
def headMatches (self other : Ex) : Bool :=
  if truthy self && !truthy other then isAny other else contains self other true false
def isPrefixOf (self other : Ex) : Bool := headMatches other self
def tailMatches (self other : Ex) : Bool :=
  if truthy self && !truthy other then isAny other else contains self other false true
def isSuffixOf (self other : Ex) : Bool := tailMatches other self

/-- expression.py:337-352 `_BaseAlignment`, the two sides. -/
structure Al where
  left : Ex
  right : Ex

/-- expression.py:390-395 `_compare` of two alignments. -/
def compareAl (check : Ex → Ex → Bool) (self other : Al) : Bool :=
  check self.left other.left && check self.right other.right

/-- expression.py:712-721 `Alignment.context_matches`. -/
def contextMatches (preceding following : Al) (fromBos toEos : Bool) (p f : Al) : Bool :=
  ((fromBos && compareAl matchesAll preceding p) || (!fromBos && compareAl isSuffixOf preceding p)) &&
  ((toEos && compareAl matchesAll following f) || (!toEos && compareAl isPrefixOf following f))

end Nisaba.Expr
