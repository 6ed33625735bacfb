import Verif.Model.Tables
/-!
# Denotational model of the Pynini operations used by nisaba

A transducer is modelled by the relation it denotes.  Pynini and OpenFst themselves are not
modelled; the definitions below are the documented meaning of their operations.
-/
namespace Nisaba

/-- Unweighted relation denoted by a transducer. -/
abbrev Rel := Str → Str → Prop

/-- Tropical-weight relation denoted by a weighted transducer: `R x y w` says that some
accepting path reads `x`, writes `y` and has total weight `w`.  All weights used by nisaba are
natural numbers. -/
abbrev WRel := Str → Str → Nat → Prop

/-- Language denoted by an acceptor. -/
abbrev Lang := Str → Prop

/-- `t` is over the alphabet `σ`: `t ∈ σ.star`. -/
def Over (σ : Nat → Prop) (t : Str) : Prop := ∀ c ∈ t, σ c

namespace Rel

/-- `a @ b`. -/
def comp (a b : Rel) : Rel := fun x z => ∃ y, a x y ∧ b y z

/-- `σ.star` as a transducer. -/
def sigmaStar (σ : Nat → Prop) : Rel := fun x y => x = y ∧ Over σ x

/-- `pynini.invert` -/
def inv (a : Rel) : Rel := fun x y => a y x

/-- `pynini.string_map` / `pynini.string_file`: union of crosses. -/
def stringMap (rows : List Rule) : Rel := fun x y => (x, y) ∈ rows

end Rel

/-- `pynini.project(fst, 'input')` of a string map. -/
def inputLang (rows : List Rule) : Lang := fun x => ∃ y, (x, y) ∈ rows

/-! ## `pynini.cdrewrite` -/

/-- Contexts of `pynini.cdrewrite`: the left context is a condition on the output written so far,
the right context a condition on the input still to be read. -/
structure Ctx where
  left : Str → Prop
  right : Str → Prop

/-- Empty contexts. -/
def Ctx.free : Ctx := ⟨fun _ => True, fun _ => True⟩

/-- Left context given by a language: some suffix of the text so far is in it. -/
def endsIn (L : Lang) : Str → Prop := fun out => ∃ p x, out = p ++ x ∧ L x

/-- Right context given by a language: some prefix of the remaining text is in it. -/
def startsIn (L : Lang) : Str → Prop := fun rest => ∃ x p, rest = x ++ p ∧ L x

/-- Rule `l → r` of `τ` is applicable at the position between `out` and `rest`,
leaving `rest'`. -/
def Applicable (τ : Rel) (C : Ctx) (out rest l r rest' : Str) : Prop :=
  τ l r ∧ rest = l ++ rest' ∧ C.left out ∧ C.right rest'

/-- Obligatory left-to-right rewriting.  `CDRewrite τ C out rest fin`: with `out` already written
and `rest` still to be read the final output may be `fin`.  A character may only be copied when no
rule is applicable at its position. -/
inductive CDRewrite (τ : Rel) (C : Ctx) : Str → Str → Str → Prop
  | done (out : Str) : CDRewrite τ C out [] out
  | apply {out rest l r rest' fin : Str} (h : Applicable τ C out rest l r rest')
      (k : CDRewrite τ C (out ++ r) rest' fin) : CDRewrite τ C out rest fin
  | copy {out rest fin : Str} {c : Nat}
      (h : ∀ l r rest', ¬ Applicable τ C out (c :: rest) l r rest')
      (k : CDRewrite τ C (out ++ [c]) rest fin) : CDRewrite τ C out (c :: rest) fin

/-- nisaba/scripts/utils/rewrite.py:24-28 `Rewrite`: `cdrewrite(rule, left, right, sigma.star)`.
Input and output are strings over the alphabet. -/
def Rewrite (τ : Rel) (σ : Nat → Prop) (C : Ctx := Ctx.free) : Rel := fun s t =>
  Over σ s ∧ Over σ t ∧ CDRewrite τ C [] s t

/-! ## Weighted relations -/

namespace WRel

/-- Unweighted relation with weight `w` on every path. -/
def ofRel (a : Rel) (w : Nat := 0) : WRel := fun x y v => a x y ∧ v = w

/-- `a @ b`: weights add up along a path. -/
def comp (a b : WRel) : WRel := fun x z w =>
  ∃ y u v, a x y u ∧ b y z v ∧ w = u + v

/-- `pynini.union(a, b)`. -/
def union (a b : WRel) : WRel := fun x y w => a x y w ∨ b x y w

/-- `a + b`: concatenation. -/
def cat (a b : WRel) : WRel := fun x y w =>
  ∃ x₁ x₂ y₁ y₂ w₁ w₂, a x₁ y₁ w₁ ∧ b x₂ y₂ w₂ ∧ x = x₁ ++ x₂ ∧ y = y₁ ++ y₂ ∧ w = w₁ + w₂

/-- `a.star`. -/
inductive Star (a : WRel) : WRel
  | nil : Star a [] [] 0
  | cons {x₁ x₂ y₁ y₂ : Str} {w₁ w₂ : Nat} (h : a x₁ y₁ w₁) (k : Star a x₂ y₂ w₂) :
      Star a (x₁ ++ x₂) (y₁ ++ y₂) (w₁ + w₂)

/-- `a.plus`. -/
def plus (a : WRel) : WRel := cat a (Star a)

/-- `pynini.accep('', weight=w)`. -/
def eps (w : Nat := 0) : WRel := fun x y v => x = [] ∧ y = [] ∧ v = w

/-- `a.ques`. -/
def ques (a : WRel) : WRel := union a (eps 0)

/-- `pynini.invert`. -/
def inv (a : WRel) : WRel := fun x y w => a y x w

/-- `pynini.string_file` of an unweighted two-column table. -/
def ofTable (rows : List Rule) : WRel := fun x y w => (x, y) ∈ rows ∧ w = 0

/-- `pynutil.insert(acceptor)`, for the acceptor of the left column of a table. -/
def insert (L : Lang) : WRel := fun x y w => x = [] ∧ L y ∧ w = 0

/-- `pynutil.delete(acceptor)`. -/
def delete (L : Lang) : WRel := fun x y w => L x ∧ y = [] ∧ w = 0

/-- `pynini.cross(acceptor, string)`. -/
def cross (L : Lang) (t : Str) : WRel := fun x y w => L x ∧ y = t ∧ w = 0

/-- `y` is the output of *some* lowest-weight path for input `x`:
the possible results of `pynini.shortestpath(x @ fst).string()`. -/
def Best (a : WRel) (x y : Str) : Prop :=
  ∃ w, a x y w ∧ ∀ y' w', a x y' w' → w ≤ w'

end WRel

end Nisaba
