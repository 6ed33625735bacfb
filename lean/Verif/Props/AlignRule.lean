import Verif.Model.AlignRule
import Verif.Props.Expression
import Verif.Lemmas.RewriteTester
/-!
# C123: rules of alignment

`Alignment.rule`, `deletion`, `insertion`, `interchangeable` and `copy` of expression.py.
-/
namespace Nisaba.Props

open Nisaba.Expr Nisaba.AlignRule ExprAux

namespace AlignAux

variable {F Op : Type}

/-- A context that a program can give: both sides are expressions that a program can make. -/
def BuiltAl (a : Al) : Prop := Built a.left ∧ Built a.right

/-- The alignments that the class methods make from expressions that a program can make. -/
inductive Made (ops : Ops F Op) : Alignment F Op → Prop
  | simple (gen : Str) (l r : Item) (hg : gen ≠ []) (hl : Built (setSide l)) (hr : Built (setSide r)) :
    Made ops (simple ops gen l r)
  | rule (gen name : Str) (l r : Ex) (a : Args F Op) (hg : gen ≠ []) (hl : Built l) (hr : Built r)
    (hp : BuiltAl a.preceding) (hf : BuiltAl a.following) : Made ops (rule ops gen name l r a)
  | deletion (gen name : Str) (l : Item) (a : Args F Op) (x : Alignment F Op) (hg : gen ≠ [])
    (hl : Built (setSide l)) (hp : BuiltAl a.preceding) (hf : BuiltAl a.following)
    (h : deletion ops gen name l a = some x) : Made ops x
  | insertion (gen name : Str) (r : Item) (a : Args F Op) (x : Alignment F Op) (hg : gen ≠ [])
    (hr : Built (setSide r)) (hp : BuiltAl a.preceding) (hf : BuiltAl a.following)
    (h : insertion ops gen name r a = some x) : Made ops x
  | l2r (gen name : Str) (l r : Ex) (a : Args F Op) (x y : Alignment F Op) (hg : gen ≠ [])
    (hl : Built l) (hr : Built r) (hp : BuiltAl a.preceding) (hf : BuiltAl a.following)
    (h : interchangeable ops gen name l r a = some (x, y)) : Made ops x
  | r2l (gen name : Str) (l r : Ex) (a : Args F Op) (x y : Alignment F Op) (hg : gen ≠ [])
    (hl : Built l) (hr : Built r) (hp : BuiltAl a.preceding) (hf : BuiltAl a.following)
    (h : interchangeable ops gen name l r a = some (x, y)) : Made ops y
  | any : Made ops (constants ops).1
  | eps : Made ops (constants ops).2.1
  | nor : Made ops (constants ops).2.2
  | copy (gen : Str) (x : Alignment F Op) (hg : gen ≠ []) (h : Made ops x) : Made ops (copy ops gen x)

theorem copyEx_built {x : Ex} (h : Built x) : copyEx x = x := by
  have hn := built_normal h
  cases x with
  | sym n => rfl
  | any => rfl
  | plain => rfl
  | cat l => rw [copyEx, mkCat, copy_cat hn]
  | or l => rw [copyEx, mkOr, copy_or hn]

theorem setContext_idem (a : Al) : setContext (setContext a) = setContext a := by
  unfold setContext
  split
  · rfl
  · rfl

theorem built_setContext {a : Al} (h : BuiltAl a) : BuiltAl (setContext a) := by
  unfold setContext
  split
  · exact ⟨.any, .any⟩
  · exact h

theorem setAlias_ne {gen : Str} (hg : gen ≠ []) (name : Str) : setAlias gen name ≠ [] := by
  unfold setAlias; split <;> assumption

/-- What `copy` needs. -/
def Good (x : Alignment F Op) : Prop := x.source = .constant ∨ (x.name ≠ [] ∧ Built x.left ∧ Built x.right ∧
  BuiltAl x.preceding ∧ BuiltAl x.following ∧ setContext x.preceding = x.preceding ∧
  setContext x.following = x.following)

theorem good_rule (ops : Ops F Op) {gen name : Str} {l r : Ex} {a : Args F Op} (hg : gen ≠ []) (hl : Built l)
    (hr : Built r) (hp : BuiltAl a.preceding) (hf : BuiltAl a.following) : Good (rule ops gen name l r a) :=
  .inr ⟨setAlias_ne hg name, hl, hr, built_setContext hp, built_setContext hf, setContext_idem _,
    setContext_idem _⟩

theorem copy_good {ops : Ops F Op} {gen : Str} {x : Alignment F Op} (h : Good x) : copy ops gen x = x := by
  unfold AlignRule.copy
  split
  · rfl
  · rename_i hs
    rcases h with h | ⟨h1, h2, h3, h4, h5, h6, h7⟩
    · exact absurd h hs
    · cases x
      simp only [AlignRule.rule, make, setAlias, setSide, setCost] at *
      rw [if_neg h1, copyEx_built h2, copyEx_built h3, copyEx_built h4.1, copyEx_built h4.2, copyEx_built h5.1,
        copyEx_built h5.2]
      simp only [h6, h7]

theorem made_good {ops : Ops F Op} {x : Alignment F Op} (h : Made ops x) : Good x := by
  induction h with
  | simple gen l r hg hl hr =>
    refine .inr ⟨(setAlias_ne hg [] :), hl, hr, ⟨.any, .any⟩, ⟨.any, .any⟩, ?_, ?_⟩ <;>
      simp [AlignRule.simple, setContext, isAnyAl, anyContext, isAny]
  | rule gen name l r a hg hl hr hp hf => exact good_rule ops hg hl hr hp hf
  | deletion gen name l a x hg hl hp hf h =>
    cases l with
    | symbol n => simp [AlignRule.deletion, shift] at h
    | expr l =>
      simp only [AlignRule.deletion, shift, Option.map_some, Option.some.injEq] at h
      exact h ▸ good_rule ops hg hl (.sym _) hp hf
  | insertion gen name r a x hg hr hp hf h =>
    simp only [AlignRule.insertion, shift, Option.map_some, Option.some.injEq] at h
    exact h ▸ good_rule ops hg (.sym _) hr hp hf
  | l2r gen name l r a x y hg hl hr hp hf h =>
    simp only [AlignRule.interchangeable, shift, setSide, Option.bind_some, Option.map_some, Option.some.injEq,
      Prod.mk.injEq] at h
    exact h.1 ▸ good_rule ops hg hl hr hp hf
  | r2l gen name l r a x y hg hl hr hp hf h =>
    simp only [AlignRule.interchangeable, shift, setSide, Option.bind_some, Option.map_some, Option.some.injEq,
      Prod.mk.injEq] at h
    exact h.2 ▸ good_rule ops hg hr hl hp hf
  | any => exact .inl rfl
  | eps => exact .inl rfl
  | nor => exact .inl rfl
  | copy gen x hg h ih => rw [copy_good ih]; exact ih

theorem any_suffix (x : Ex) : isSuffixOf .any x = true ∧ isPrefixOf .any x = true := by
  cases x with
  | sym n => simp [isSuffixOf, isPrefixOf, tailMatches, headMatches, truthy, isAny]
  | any => simp [isSuffixOf, isPrefixOf, tailMatches, headMatches, truthy, isAny, contains, isNor]
  | plain => simp [isSuffixOf, isPrefixOf, tailMatches, headMatches, truthy, isAny, contains, isNor]
  | cat l => cases l <;> simp [isSuffixOf, isPrefixOf, tailMatches, headMatches, truthy, isAny, contains, isNor]
  | or l => cases l <;> simp [isSuffixOf, isPrefixOf, tailMatches, headMatches, truthy, isAny, contains, isNor]

theorem any_matches (x : Ex) : matchesAll .any x = true ↔ x ≠ .sym nor := by
  cases x <;> simp [matchesAll, contains, isAny, isNor]

end AlignAux

open AlignAux

variable {F Op : Type}

/-- C123: a copy of an alignment is the same in every attribute, however it was made. -/
theorem C123_copy {ops : Ops F Op} {r : Alignment F Op} (h : Made ops r) (gen : Str) :
    copy ops gen r = r := copy_good (made_good h)

/-- C123: a rule applies exactly where the contexts given for it match: a side that is given as `ANY` sets no
condition, but for a context from the beginning or to the end the actual context must not be `nor`. -/
theorem C123_context (ops : Ops F Op) (gen name : Str) (l r : Ex) (a : Args F Op) (p f : Al) :
    matchesIn (rule ops gen name l r a) p f = true ↔
      (if isAny a.preceding.left && isAny a.preceding.right then
        a.fromBos = true → p.left ≠ .sym nor ∧ p.right ≠ .sym nor
      else if a.fromBos then matchesAll a.preceding.left p.left ∧ matchesAll a.preceding.right p.right
      else isSuffixOf a.preceding.left p.left ∧ isSuffixOf a.preceding.right p.right) ∧
      (if isAny a.following.left && isAny a.following.right then
        a.toEos = true → f.left ≠ .sym nor ∧ f.right ≠ .sym nor
      else if a.toEos then matchesAll a.following.left f.left ∧ matchesAll a.following.right f.right
      else isPrefixOf a.following.left f.left ∧ isPrefixOf a.following.right f.right) := by
  simp only [matchesIn, contextMatches, AlignRule.rule, make, setSide, setContext, isAnyAl, Bool.and_eq_true]
  refine and_congr ?_ ?_
  · split
    · cases a.fromBos <;> simp [anyContext, compareAl, any_suffix, any_matches]
    · cases a.fromBos <;> simp [compareAl]
  · split
    · cases a.toEos <;> simp [anyContext, compareAl, any_suffix, any_matches]
    · cases a.toEos <;> simp [compareAl]

/-- C123: a rule without contexts applies everywhere. -/
theorem C123_everywhere (ops : Ops F Op) (gen name : Str) (l r : Ex) (op : Op) (p f : Al) :
    matchesIn (rule ops gen name l r { operation := op }) p f = true := by
  rw [C123_context]
  simp [anyContext, isAny]

/-- C123: a deletion aligns the expression with nothing and an insertion nothing with the expression or the
symbol, each with the contexts, the operation, the priority and the source given. -/
theorem C123_delete_insert_partial (ops : Ops F Op) (gen name : Str) (hname : name ≠ []) (x : Ex)
    (a : Args F Op) :
    (∃ d, deletion ops gen name (.expr x) a = some d ∧ d.left = x ∧ symbols d.right = symbols (mkCat []) ∧
      (∀ p f, matchesIn d p f = matchesIn (rule ops gen name x x a) p f) ∧
      d.name = name ∧ d.operation = a.operation ∧ d.priority = a.priority ∧ d.source = a.source) ∧
    ∀ i : Item, setSide i = x → ∃ d, insertion ops gen name i a = some d ∧ d.right = x ∧
      symbols d.left = symbols (mkCat []) ∧
      (∀ p f, matchesIn d p f = matchesIn (rule ops gen name x x a) p f) ∧
      d.name = name ∧ d.operation = a.operation ∧ d.priority = a.priority ∧ d.source = a.source := by
  have e : symbols (.sym eps) = symbols (mkCat []) := by simp [mkCat, addCats, symbols, catSymbols]
  refine ⟨⟨_, rfl, rfl, e, fun _ _ => rfl, by simp [AlignRule.rule, make, setAlias, hname], rfl, rfl, rfl⟩,
    fun i hi => ⟨_, rfl, hi, e, fun _ _ => rfl, by simp [AlignRule.rule, make, setAlias, hname], rfl, rfl, rfl⟩⟩

/-- C123 is violated by `deletion` of a symbol that is no `Atomic`, for instance a grapheme or a phoneme: the
type of its argument allows it and `insertion` takes it, but `deletion` raises a `TypeError`. -/
theorem C123_deletion_violated (ops : Ops F Op) (gen name : Str) (n : Nat) (a : Args F Op) :
    deletion ops gen name (.symbol n) a = none ∧ (insertion ops gen name (.symbol n) a).isSome :=
  ⟨rfl, rfl⟩

/-- C123: `interchangeable` gives two rules with the sides exchanged that differ in nothing else but the name;
the rules made from the exchanged alignment are the same two with the other aliases. -/
theorem C123_interchangeable (ops : Ops F Op) (gen name : Str) (l r : Ex) (a : Args F Op) :
    ∃ x y, interchangeable ops gen name l r a = some (x, y) ∧ x.left = l ∧ x.right = r ∧
      y = { x with left := r, right := l, name := y.name } ∧ x.name = name ++ a!"_l2r" ∧
      y.name = name ++ a!"_r2l" ∧ (∀ p f, matchesIn x p f = matchesIn y p f) ∧
      ∃ x' y', interchangeable ops gen name r l a = some (x', y') ∧ x' = { y with name := x.name } ∧
        y' = { x with name := y.name } := by
  refine ⟨_, _, rfl, rfl, rfl, rfl, ?_, ?_, fun _ _ => rfl, _, _, rfl, ?_, ?_⟩ <;>
    simp [AlignRule.rule, make, setAlias]

/-- C123: the cost of a rule is the float that was given, or the base cost of its operation. -/
theorem C123_cost_partial (ops : Ops F Op) (gen name : Str) (l r : Ex) (a : Args F Op) :
    (∀ c, (rule ops gen name l r { a with cost := .float c }).appliedCost = c) ∧
    (rule ops gen name l r { a with cost := .unspecified }).appliedCost = ops.baseCost a.operation :=
  ⟨fun _ => rfl, rfl⟩

/-- C123 is violated by a cost that is an `int`, which `deletion`, `insertion` and `interchangeable` declare:
whatever it is, the rule has the base cost of its operation. -/
theorem C123_int_cost_violated (ops : Ops F Op) (gen name : Str) (x y : Ex) (a : Args F Op) (n : Int) :
    (∃ d, deletion ops gen name (.expr x) { a with cost := .int n } = some d ∧
      d.appliedCost = ops.baseCost a.operation) ∧
    (∃ d, insertion ops gen name (.expr x) { a with cost := .int n } = some d ∧
      d.appliedCost = ops.baseCost a.operation) ∧
    ∃ d e, interchangeable ops gen name x y { a with cost := .int n } = some (d, e) ∧
      d.appliedCost = ops.baseCost a.operation ∧ e.appliedCost = ops.baseCost a.operation :=
  ⟨⟨_, rfl, rfl⟩, ⟨_, rfl, rfl⟩, _, _, rfl, rfl, rfl⟩

/-- C123: the constants: all three apply everywhere, are unassigned, and each is its own copy.  Both sides of
`ANY` are any, those of `EPS` have `eps` as their only symbol, those of `NOR` are `nor`. -/
theorem C123_constants [DecidableEq Op] (ops : Ops F Op) (gen : Str) (p f : Al) :
    (∀ c ∈ [(constants ops).1, (constants ops).2.1, (constants ops).2.2],
      matchesIn c p f = true ∧ isAssigned ops c = false ∧ copy ops gen c = c) ∧
    (isAny (constants ops).1.left = true ∧ isAny (constants ops).1.right = true) ∧
    (symbols (constants ops).2.1.left = [[.sy eps]] ∧ symbols (constants ops).2.1.right = [[.sy eps]]) ∧
    isNor (constants ops).2.2.left = true ∧ isNor (constants ops).2.2.right = true := by
  have h : ∀ c : Alignment F Op, c.preceding = anyContext → c.following = anyContext → c.fromBos = false →
      c.toEos = false → matchesIn c p f = true := by
    intro c h1 h2 h3 h4
    simp [matchesIn, contextMatches, h1, h2, h3, h4, anyContext, compareAl, any_suffix]
  refine ⟨?_, ⟨rfl, rfl⟩, ⟨by simp [constants, make, setSide, symbols], by simp [constants, make, setSide, symbols]⟩,
    rfl, rfl⟩
  intro c hc
  simp only [List.mem_cons, List.not_mem_nil, or_false] at hc
  rcases hc with rfl | rfl | rfl
  · exact ⟨h _ rfl rfl rfl rfl, by simp [isAssigned, constants, make], rfl⟩
  · exact ⟨h _ rfl rfl rfl rfl, by simp [isAssigned, constants, make], rfl⟩
  · exact ⟨h _ rfl rfl rfl rfl, by simp [isAssigned, constants, make], rfl⟩

/-- C123: a row has five fields, the name, both sides, the operation and the cost, provided that none of
them has a tab. -/
theorem C123_row_partial (ops : Ops F Op) (text : Ex → Str) (fmt : F → Str) (r : Alignment F Op)
    (h1 : 9 ∉ r.name) (h2 : ∀ x, 9 ∉ text x) (h3 : ∀ o, 9 ∉ ops.text o) (h4 : ∀ c, 9 ∉ fmt c) :
    RewriteTester.splitOn 9 (tsvRow ops text fmt r) =
      [r.name, (items r.left).flatMap text, (items r.right).flatMap text, ops.text r.operation,
        fmt r.appliedCost] := by
  rw [tsvRow, RewriteTester.splitOn_intercalate]
  intro v hv
  simp only [List.mem_cons, List.not_mem_nil, or_false] at hv
  rcases hv with rfl | rfl | rfl | rfl | rfl
  · exact h1
  · simp [h2]
  · simp [h2]
  · exact h3 _
  · exact h4 _

/-- C123 is violated by rows with alternatives: a rule for "a or b" and a rule for "a and then b" with the same
name and cost have the same row, and the sides accept different symbols. -/
theorem C123_row_violated (ops : Ops F Op) (text : Ex → Str) (fmt : F → Str) (gen name : Str) (r : Ex)
    (a : Args F Op) :
    let x := mkOr [.sym 7, .sym 8]
    let y := mkCat [.sym 7, .sym 8]
    tsvRow ops text fmt (rule ops gen name x r a) = tsvRow ops text fmt (rule ops gen name y r a) ∧
      accepts x (.sym 7) = true ∧ accepts y (.sym 7) = false := by
  have h1 : mkOr [.sym 7, .sym 8] = .or [.sym 7, .sym 8] := by
    simp [mkOr, addOrs, addOr, orStep, hasAny, isAny, accepts, symbols, orSymbols, memL, eqL, isControl, Tok.eq]
  have h2 : mkCat [.sym 7, .sym 8] = .cat [.sym 7, .sym 8] := by simp [mkCat, addCats, addCat, isControl]
  refine ⟨?_, by decide +kernel, by decide +kernel⟩
  simp only [h1, h2, tsvRow, AlignRule.rule, make, setSide, items]

/-! ## Examples -/

/-- Operations with natural numbers as costs in thousandths. -/
def testOps : Ops Nat Nat := ⟨fun n => [0, 1000, 1000, 100, 10000, 100000].getD n 0, fun n => [n + 97], 0, 1, 2, 3, 4, 5⟩

/-- A rule with contexts, of which one is `ANY` in a sequence, is copied. -/
example : copy testOps [1] (rule testOps [1] [] (mkCat [.sym 7, mkOr [.sym 8, .sym 9]]) (.sym 8)
    { preceding := ⟨mkOr [.sym 7, mkCat []], .any⟩, following := ⟨mkCat [.any], .any⟩, operation := 0 }) =
    rule testOps [1] [] (mkCat [.sym 7, mkOr [.sym 8, .sym 9]]) (.sym 8)
    { preceding := ⟨mkOr [.sym 7, mkCat []], .any⟩, following := ⟨mkCat [.any], .any⟩, operation := 0 } := by
  have s : ∀ n, Built (.sym n) := .sym
  refine C123_copy (.rule _ _ _ _ _ (by simp) (.cat _ ?_) (s 8) ⟨.or _ ?_, .any⟩ ⟨.cat _ ?_, .any⟩) _
  · simp only [List.mem_cons, List.not_mem_nil, or_false, forall_eq_or_imp, forall_eq]
    exact ⟨s 7, .or _ (by simp [s])⟩
  · simp only [List.mem_cons, List.not_mem_nil, or_false, forall_eq_or_imp, forall_eq]
    exact ⟨s 7, .cat _ (by simp)⟩
  · simp only [List.mem_cons, List.not_mem_nil, or_false, forall_eq]
    exact .any

/-- The rule applies after its symbol only. -/
example : matchesIn (rule testOps [1] [] (.sym 7) (.sym 8) { preceding := ⟨.sym 9, .any⟩, operation := 0 })
      ⟨mkCat [.sym 7, .sym 9], .sym 7⟩ ⟨.sym 8, .sym 8⟩ = true ∧
    matchesIn (rule testOps [1] [] (.sym 7) (.sym 8) { preceding := ⟨.sym 9, .any⟩, operation := 0 })
      ⟨.sym 7, .sym 7⟩ ⟨.sym 8, .sym 8⟩ = false := by decide +kernel

end Nisaba.Props
