import Verif.Model.AlignRule
/-!
# Model of the printed forms of expressions and alignments

nisaba/scripts/natural_translit/utils/expression.py, on top of `Verif.Model.Expression` and
`Verif.Model.AlignRule`.
-/
namespace Nisaba.ExprStr

open Nisaba.Expr Nisaba.AlignRule

/-- The attribute `text` of symbols, of plain expressions and of a `Cat`, `Or` or `ANY` (type_op.py:45-48: the class
and the alias, which may be a hash).  Simplified: all plain expressions have one text, and equal expressions
have equal texts. -/
structure Texts where
  sym : Nat → Str
  plain : Str
  label : Ex → Str

/-- expression.py:43, the text of `Expression.ANY`. -/
def anyText : Str := [0x200B, 0x1F753, 0x22C6, 0x200B]

mutual
/-- `str(x)`: expression.py:41-44, 205-208, 261-269 with 49-60 `_str_enclosed`. -/
def str (T : Texts) : Ex → Str
  | .sym n => T.sym n
  | .any => anyText
  | .plain => T.plain
  | .cat [] => T.sym eps
  | .cat (x :: xs) => 40 :: (str T x ++ (strRest T [32] xs ++ [41]))
  | .or [] => T.sym nor
  | .or [x] => 40 :: (str T x ++ ([32, 124, 32] ++ T.sym nor ++ [41]))
  | .or (x :: y :: xs) =>
    40 :: (str T x ++ ([32, 124, 32] ++ str T y ++ strRest T [32, 124, 32] xs ++ [41]))
/-- expression.py:46-47 `_str_items_list` and the `join` of 58 after the first item. -/
def strRest (T : Texts) (sep : Str) : List Ex → Str
  | [] => []
  | x :: xs => sep ++ str T x ++ strRest T sep xs
end

/-- The attribute `text` of an expression. -/
def textOf (T : Texts) : Ex → Str
  | .sym n => T.sym n
  | .plain => T.plain
  | x => T.label x

/-- expression.py:357-360 `_side_str`. -/
def sideStr (T : Texts) (x : Ex) : Str :=
  if isAny x then str T x
  else match items x with
    | [y] => textOf T y
    | _ => str T x

/-- expression.py:362-365 `_aligned_str`. -/
def alignedStr (T : Texts) (a : Al) : Str := sideStr T a.left ++ 0x2236 :: sideStr T a.right

/-- expression.py:367-376 `enclosed_str`. -/
def enclosedStr (T : Texts) (left right pre suf : Str) (a : Al) : Str :=
  left ++ pre ++ alignedStr T a ++ suf ++ right

/-- expression.py:378-379 `__str__` of an alignment. -/
def alignStr (T : Texts) (a : Al) : Str := enclosedStr T [40] [41] [] [] a

/-- expression.py:381-382 `_BaseAlignment.is_any`. -/
def alAny (a : Al) : Bool := isAny a.left && isAny a.right

/-- expression.py:514-519 `_context_str`. -/
def contextStr (T : Texts) (a : Al) (pre suf : Str) : Str :=
  if alAny a then [] else enclosedStr T [0x2308] [0x230B] pre suf a

/-- Indices of `bos` and `eos` among the control symbols (symbol.py:718-745). -/
def bos : Nat := 2
def eos : Nat := 3

variable {F Op : Type}

/-- expression.py:521-524 `_pre_str`. -/
def preStr (T : Texts) (r : Alignment F Op) : Str :=
  let p := contextStr T r.preceding (if r.fromBos then T.sym bos else []) []
  if p.isEmpty then [] else p ++ [32]

/-- expression.py:526-529 `_fol_str`. -/
def folStr (T : Texts) (r : Alignment F Op) : Str :=
  let f := contextStr T r.following [] (if r.toEos then T.sym eos else [])
  if f.isEmpty then [] else 32 :: f

/-- expression.py:531-551 `string`; `op` is the printed form of the operation, `none` if it is not
assigned. -/
def string (T : Texts) (op : Op → Option Str) (r : Alignment F Op) : Str :=
  let o := match op r.operation with
    | some s => [44, 32] ++ s
    | none => []
  enclosedStr T [40] [41] (preStr T r) (folStr T r ++ o) ⟨r.left, r.right⟩

end Nisaba.ExprStr
