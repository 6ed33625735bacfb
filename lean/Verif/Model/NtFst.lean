import Verif.Model.Pynini
/-!
# Model of nisaba/scripts/natural_translit/utils: alignments and rewrite rules

Transducers are the relations they denote (see `Verif.Model.Pynini`).  Pynini is not modelled; the
definitions of `cdrewrite`, concatenation, union and closure are the documented meaning of its
operations.  The labels of a string are numbers; the characters `[BOS]` and `[EOS]` that may occur
in the contexts of a rewrite rule are two numbers outside of Unicode.
-/
open Lean in
/-- `a!"abc"` is the list of the code points of a string literal. -/
macro:max "a!" s:str : term => do
  let cs := s.getString.toList.map (fun c => Syntax.mkNumLit (toString c.toNat))
  `(([$(cs.toArray),*] : List Nat))

namespace Nisaba.NT

/-- Equality of strings, in a form that evaluates quickly. -/
def seq : Str → Str → Bool
  | [], [] => true
  | a :: x, b :: y => bif Nat.beq a b then seq x y else false
  | _, _ => false

/-! ## Languages -/

/-- `pynini.accep(s)`. -/
def str (s : Str) : Lang := fun x => x = s

/-- `a + b`. -/
def cat (a b : Lang) : Lang := fun x => ∃ u v, x = u ++ v ∧ a u ∧ b v

/-- `pynini.union` of a list, the empty language for the empty list
(nisaba/scripts/natural_translit/utils/fst_list.py:97-104 `FstList.union`). -/
def oneOf (ls : List Lang) : Lang := fun x => ∃ l ∈ ls, l x

/-- `a | b`. -/
def alt (a b : Lang) : Lang := fun x => a x ∨ b x

/-- `a - b`. -/
def minus (a b : Lang) : Lang := fun x => a x ∧ ¬ b x

/-- `a.ques`. -/
def ques (a : Lang) : Lang := fun x => a x ∨ x = []

/-- `a.star`. -/
inductive Star (a : Lang) : Lang
  | nil : Star a []
  | cons {u v : Str} (h : a u) (k : Star a v) : Star a (u ++ v)

/-! ## Relations -/

/-- `pynini.cross(a, b)`. -/
def cross (a b : Lang) : Rel := fun x y => a x ∧ b y

/-- `pynini.union` of a list of transducers. -/
def unionR (rs : List Rel) : Rel := fun x y => ∃ r ∈ rs, r x y

/-- `a.star`. -/
inductive StarR (a : Rel) : Rel
  | nil : StarR a [] []
  | cons {u v x y : Str} (h : a u x) (k : StarR a v y) : StarR a (u ++ v) (x ++ y)

/-- nisaba/scripts/natural_translit/utils/fst_list.py:123-125 `FstList.compose`, that is
nisaba/scripts/utils/rewrite.py `ComposeFsts`: the composition of all transducers of a list.  The
empty list is the identity here; it does not occur. -/
def compose : List Rel → Rel
  | [] => fun x y => x = y
  | [r] => r
  | r :: rs => Rel.comp r (compose rs)

/-! ## `pynini.cdrewrite` -/

/-- Contexts: a condition on the output written so far and one on the input still to be read. -/
structure Cx (α : Type) where
  left : List α → Prop
  right : List α → Prop

/-- Obligatory left-to-right rewriting over any alphabet.  `Cdr τ C out rest fin`: with `out`
already written and `rest` still to be read the output may be `fin`.  At every position where some
rule is applicable one of them is applied.  A rule with empty input is applied at most once at a
position; the next character is copied then.  Without such rules this is `Nisaba.CDRewrite`
(`cdr_iff_CDRewrite`). -/
inductive Cdr {α : Type} (τ : List α → List α → Prop) (C : Cx α) :
    List α → List α → List α → Prop
  | done {out : List α} (h : ∀ r, τ [] r → C.left out → ¬ C.right []) : Cdr τ C out [] out
  | insEnd {out r : List α} (h : τ [] r) (hl : C.left out) (hr : C.right []) :
      Cdr τ C out [] (out ++ r)
  | apply {out l r rest fin : List α} (h : τ l r) (hne : l ≠ []) (hl : C.left out)
      (hr : C.right rest) (k : Cdr τ C (out ++ r) rest fin) : Cdr τ C out (l ++ rest) fin
  | ins {out r rest fin : List α} {c : α} (h : τ [] r) (hl : C.left out)
      (hr : C.right (c :: rest)) (k : Cdr τ C (out ++ r ++ [c]) rest fin) :
      Cdr τ C out (c :: rest) fin
  | copy {out rest fin : List α} {c : α}
      (h : ∀ l r rest', τ l r → c :: rest = l ++ rest' → C.left out → ¬ C.right rest')
      (k : Cdr τ C (out ++ [c]) rest fin) : Cdr τ C out (c :: rest) fin

/-- Label of `[BOS]`. -/
def bos : Nat := 0x110000
/-- Label of `[EOS]`. -/
def eos : Nat := 0x110001

/-- Contexts given by two languages over the alphabet with `[BOS]` and `[EOS]`. -/
def ctxOf (l r : Lang) : Cx Nat :=
  ⟨fun out => endsIn l (bos :: out), fun rest => startsIn r (rest ++ [eos])⟩

/-- nisaba/scripts/natural_translit/utils/alignment.py:25 `BYTE_STAR`. -/
def byteLabel (c : Nat) : Prop := 0 < c ∧ c < 256

/-- `pynini.cdrewrite(τ, l, r, al.BYTE_STAR)`: input and output are over the alphabet. -/
def cdrewrite (τ : Rel) (l r : Lang) : Rel := fun x y =>
  Over byteLabel x ∧ Over byteLabel y ∧ Cdr τ (ctxOf l r) [] x y

/-! ## nisaba/scripts/natural_translit/utils/alignment.py -/

/-- alignment.py:29-70, the characters used as delimiters. -/
def LT : Nat := 60
def GT : Nat := 62
def CURLYL : Nat := 123
def CURLYR : Nat := 125
def EQ : Nat := 61
def GRAVE : Nat := 96

/-- alignment.py:82-84 `enclose_grapheme` of a string. -/
def encloseGrapheme (s : Str) : Str := LT :: (s ++ [GT])
/-- alignment.py:87-89 `enclose_phoneme` of a string. -/
def enclosePhoneme (s : Str) : Str := CURLYL :: (s ++ [CURLYR])
/-- alignment.py:92-94 `enclose_translit` of a string. -/
def encloseTranslit (s : Str) : Str := GRAVE :: (s ++ [GRAVE])

/-- alignment.py:97-99 `align`. -/
def align (l r : Lang) : Lang := cat l (cat (str [EQ]) r)
/-- alignment.py:102-106 `realign`. -/
def realign (l old new : Lang) : Rel := cross (align l old) (align l new)
/-- alignment.py:109-111 `assign`. -/
def assign (l r : Lang) : Rel := cross l (align l r)

/-- alignment.py:114-118, the characters of `PUNCTUATION_LIST` and `byte.ALPHA`. -/
def symChar (c : Nat) : Prop :=
  (65 ≤ c ∧ c ≤ 90) ∨ (97 ≤ c ∧ c ≤ 122) ∨ c ∈ a!"_+.*-&!:"

/-- alignment.py:118 `SYM`. -/
def SYM : Lang := fun x => ∀ c ∈ x, symChar c
/-- alignment.py:119 `GRAPHEME`. -/
def GRAPHEME : Lang := cat (str [LT]) (cat SYM (str [GT]))
/-- alignment.py:120 `GRAPHEMES`. -/
def GRAPHEMES : Lang := Star GRAPHEME
/-- alignment.py:121 `PHONEME`. -/
def PHONEME : Lang := cat (str [CURLYL]) (cat SYM (str [CURLYR]))
/-- alignment.py:123 `TRANSLIT`. -/
def TRANSLIT : Lang := cat (str [GRAVE]) (cat SYM (str [GRAVE]))
/-- alignment.py:127 `R_SYMS`. -/
def R_SYMS : Lang := Star (alt PHONEME TRANSLIT)
/-- alignment.py:133 `SKIP_LEFT_SIDE`. -/
def SKIP_LEFT_SIDE : Lang := ques (cat GRAPHEMES (str [EQ]))
/-- alignment.py:134 `SKIP_RIGHT_SIDE`. -/
def SKIP_RIGHT_SIDE : Lang := ques (cat (str [EQ]) R_SYMS)
/-- alignment.py:135 `SKIP`. -/
def SKIP : Lang := alt SKIP_LEFT_SIDE SKIP_RIGHT_SIDE
/-- alignment.py:138 `BOW`. -/
def BOW : Lang := cat (str [bos]) (ques SKIP_LEFT_SIDE)
/-- alignment.py:141 `EOW`. -/
def EOW : Lang := cat (ques SKIP_RIGHT_SIDE) (str [eos])

/-! ## nisaba/scripts/natural_translit/utils/rewrite_functions.py

A context argument is `none` when it is the object `al.EPSILON`, the default of the functions. -/

/-- rewrite_functions.py:24-64 `rewrite_op`. -/
def rewriteOp (op : Rel) (preceding following : Option Lang := none) : Rel :=
  cdrewrite op
    (match preceding with | none => str [] | some p => cat p SKIP)
    (match following with | none => str [] | some f => cat SKIP f)

/-- rewrite_functions.py:67-76 `rewrite`. -/
def rewrite (old new : Lang) (preceding following : Option Lang := none) : Rel :=
  rewriteOp (cross old new) preceding following

/-- rewrite_functions.py:79-87 `rewrite_ls`. -/
def rewriteLs (ls : List (Lang × Lang)) (preceding following : Option Lang := none) : Rel :=
  rewriteOp (unionR (ls.map (fun p => cross p.1 p.2))) preceding following

/-- rewrite_functions.py:90-99 `rewrite_word_initial`. -/
def rewriteWordInitial (old new : Lang) (following : Option Lang := none) : Rel :=
  rewrite old new (some BOW) following

/-- rewrite_functions.py:102-111 `rewrite_word_final`. -/
def rewriteWordFinal (old new : Lang) (preceding : Option Lang := none) : Rel :=
  rewrite old new preceding (some EOW)

/-- rewrite_functions.py:139-177 `reassign`. -/
def reassign (left old new : Lang) (preceding following : Option Lang := none) : Rel :=
  rewriteOp (realign left old new) preceding following

/-- rewrite_functions.py:191-202 `reassign_word_initial`. -/
def reassignWordInitial (left old new : Lang) (following : Option Lang := none) : Rel :=
  reassign left old new (some BOW) following

/-- rewrite_functions.py:205-216 `reassign_word_final`. -/
def reassignWordFinal (left old new : Lang) (preceding : Option Lang := none) : Rel :=
  reassign left old new preceding (some EOW)

/-- rewrite_functions.py:219-256 `reassign_adjacent_alignments`. -/
def reassignAdjacent (left1 old1 new1 left2 old2 new2 : Lang) : Rel :=
  rewrite (cat (align left1 old1) (align left2 old2)) (cat (align left1 new1) (align left2 new2))

/-- rewrite_functions.py:259-309 `merge`.  `new_right` is always given here. -/
def merge (left1 right1 left2 right2 newRight : Lang)
    (preceding following : Option Lang := none) : Rel :=
  rewrite (cat (align left1 right1) (align left2 right2)) (align (cat left1 left2) newRight)
    preceding following

/-- rewrite_functions.py:312-320 `merge_repeated_alignment`. -/
def mergeRepeated (left right newRight : Lang) : Rel := merge left right left right newRight

/-- rewrite_functions.py:336-345 `delete`. -/
def delete (syms : Lang) (preceding following : Option Lang := none) : Rel :=
  rewrite syms (str []) preceding following

/-- rewrite_functions.py:348-349 `EXTRACT_RIGHT_SIDE`. -/
def EXTRACT_RIGHT_SIDE : Rel := delete (oneOf [GRAPHEMES, str [EQ]])

/-- nisaba/scripts/natural_translit/utils/concat.py:26-53 `concat_r`. -/
def concatR (a b : Lang) : Lang := cat a (cat (ques SKIP_LEFT_SIDE) b)

end Nisaba.NT
