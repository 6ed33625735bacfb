import Verif.Lemmas.Expression
/-!
# C44, C45, C57, C58: expressions
-/
namespace Nisaba.Props

open Nisaba.Expr

namespace ExprAux

/-- The expressions a program can make: atomics, `ANY`, other plain expressions, `Cat(...)`,
`Or(...)`, and the two after more `add` calls. -/
inductive Built : Ex → Prop
  | sym (n : Nat) : Built (.sym n)
  | any : Built .any
  | plain : Built .plain
  | cat (items : List Ex) (h : ∀ x ∈ items, Built x) : Built (mkCat items)
  | or (items : List Ex) (h : ∀ x ∈ items, Built x) : Built (mkOr items)
  | addCat (l items : List Ex) (hl : Built (.cat l)) (h : ∀ x ∈ items, Built x) :
    Built (.cat (addCats l items))
  | addOr (l items : List Ex) (hl : Built (.or l)) (h : ∀ x ∈ items, Built x) :
    Built (.or (addOrs l items))

theorem built_normal {x : Ex} (h : Built x) : Normal x := by
  induction h with
  | sym => simp [Normal]
  | any => simp [Normal]
  | plain => simp [Normal]
  | cat items _ ih =>
    simp only [mkCat, Normal]
    exact addCats_ok items [] (normalL_iff.2 ih) ⟨trivial, by simp⟩
  | or items _ ih =>
    exact normal_of_orOk' (addOrs_ok' items [] (normalL_iff.2 ih) (.inr orOk_nil))
  | addCat l items _ _ ihl ih =>
    simp only [Normal] at ihl ⊢
    exact addCats_ok items l (normalL_iff.2 ih) ihl
  | addOr l items _ _ ihl ih =>
    exact normal_of_orOk' (addOrs_ok' items l (normalL_iff.2 ih) (orOk'_of_normal ihl))

theorem built_normalL {l : List Ex} (h : ∀ x ∈ l, Built x) : NormalL l :=
  normalL_iff.2 fun x hx => built_normal (h x hx)

theorem addCats_append : ∀ (a b s : List Ex), addCats s (a ++ b) = addCats (addCats s a) b
  | [], b, s => by simp [addCats]
  | x :: a, b, s => by
    simp only [List.cons_append, addCats]
    exact addCats_append a b _

theorem addOrs_append : ∀ (a b s : List Ex), (∀ x ∈ a, isAny x = false) → (∀ x ∈ a, Normal x) → OrOk s →
    addOrs s (a ++ b) = addOrs (addOrs s a) b
  | [], b, s, _, _, _ => by simp [addOrs]
  | x :: a, b, s, ha, hn, h => by
    have hx := ha x (by simp)
    rw [List.cons_append, addOrs_nonany h hx, addOrs_nonany h hx]
    exact addOrs_append a b _ (fun y hy => ha y (by simp [hy])) (fun y hy => hn y (by simp [hy]))
      (addOr_ok x s (hn x (by simp)) hx h)

/-- A prefix of an addition to a sequence stays: adding `ys` to `s` appends what adding them to the
empty sequence gives. -/
theorem addCat_app : ∀ (x : Ex) (s : List Ex), Normal x → addCat s x = s ++ addCat [] x
  | .sym n, s, _ => by simp only [addCat]; split <;> simp
  | .any, s, _ => by simp [addCat]
  | .plain, s, _ => by simp [addCat]
  | .cat l, s, hn => by
    simp only [addCat]
    split
    · simp
    · simp only [Normal] at hn
      rw [addCats_normal l s hn.1 hn.2, addCats_normal l [] hn.1 hn.2]
      simp
  | .or [], s, _ => by simp [addCat]
  | .or [x], s, hn => by
    simp only [addCat]
    split
    · simp
    · simp only [Normal, NormalL] at hn
      exact addCat_app x s hn.1.1
  | .or (x :: y :: xs), s, _ => by simp [addCat]

theorem addCats_app : ∀ (l s : List Ex), NormalL l → addCats s l = s ++ addCats [] l
  | [], s, _ => by simp [addCats]
  | x :: xs, s, hn => by
    simp only [addCats]
    rw [addCats_app xs _ hn.2, addCats_app xs (addCat [] x) hn.2, addCat_app x s hn.1]
    simp

theorem addCat_mkCat {ys : List Ex} (h : NormalL ys) (ha : isAny (mkCat ys) = false) (s : List Ex) :
    addCat s (mkCat ys) = addCats s ys := by
  have hn : Normal (mkCat ys) := by
    simp only [mkCat, Normal]
    exact addCats_ok ys [] h ⟨trivial, by simp⟩
  simp only [mkCat] at ha hn ⊢
  simp only [addCat, ha, Bool.false_eq_true, if_false]
  simp only [Normal] at hn
  rw [addCats_normal _ s hn.1 hn.2, addCats_app ys s h]

theorem mkOr_lang {xs : List Ex} (hb : ∀ x ∈ xs, Built x) (ha : ∀ x ∈ xs, isAny x = false)
    (hc : ∀ x ∈ xs, NotControl x) (z : List Tok) :
    Lang (mkOr xs) z ↔ ∃ x ∈ xs, Lang x z := by
  rw [mkOr, addOrs_lang xs [] z (built_normalL hb) ha hc orOk_nil]
  simp [lang_or]

theorem isAny_mkOr_false {xs : List Ex} (hb : ∀ x ∈ xs, Built x) (ha : ∀ x ∈ xs, isAny x = false) :
    isAny (mkOr xs) = false :=
  isAny_or_ok (addOrs_ok xs [] (built_normalL hb) ha orOk_nil)

theorem any_stays : ∀ (l : List Ex) (y : Ex), isAny y = true → ∃ z, addOrs [y] l = [z] ∧ isAny z = true
  | [], y, h => ⟨y, by simp [addOrs], h⟩
  | x :: xs, y, h => by
    simp only [addOrs]
    split
    · exact ⟨y, rfl, h⟩
    · split
      · rename_i hx
        exact ⟨x, rfl, hx⟩
      · rename_i hx
        rw [addOr_after_any h x (by simpa using hx)]
        exact any_stays xs y h

theorem any_found : ∀ (l s : List Ex), NormalL l → OrOk s → (∃ x ∈ l, isAny x = true) →
    isAny (.or (addOrs s l)) = true
  | [], _, _, _, h => by simp at h
  | x :: xs, s, hn, hs, h => by
    simp only [addOrs, hasAny_false hs.2.1, Bool.false_eq_true, if_false]
    cases hx : isAny x with
    | true => simp [isAny, hx]
    | false =>
      obtain ⟨y, hy, hya⟩ := h
      have hy' : y ∈ xs := by
        rcases List.mem_cons.1 hy with rfl | hy
        · rw [hx] at hya; cases hya
        · exact hy
      simpa using any_found xs _ hn.2 (addOr_ok x s hn.1 hx hs) ⟨y, hy', hya⟩

/-- Atomics `a`, `b`, … of the examples. -/
def a : Ex := .sym 10
def b : Ex := .sym 11
def c : Ex := .sym 12
def d : Ex := .sym 13

theorem built_a : Built a := .sym _
theorem built_b : Built b := .sym _

end ExprAux

open ExprAux

/-! ## C44 -/

/-- A sequence that any program makes holds atomics of symbols that are no control symbols, plain
expressions, alternations with no or several items, and `any`: nested sequences, controls and
alternations with one item are gone. -/
theorem C44_cat_flat {l : List Ex} (h : Built (.cat l)) : ∀ x ∈ l,
    isAny x = true ∨ (∃ n, x = .sym n ∧ isControl n = false) ∨ x = .plain ∨
      ∃ m, x = .or m ∧ m.length ≠ 1 := by
  have hn := built_normal h
  simp only [Normal] at hn
  intro x hx
  rcases hn.2 x hx with h1 | h1
  · exact .inl h1
  · cases x with
    | sym n => exact .inr (.inl ⟨n, rfl, h1⟩)
    | any => exact .inl rfl
    | plain => exact .inr (.inr (.inl rfl))
    | cat m => exact absurd h1 id
    | or m => exact .inr (.inr (.inr ⟨m, rfl, h1⟩))

example : Built (mkCat [mkCat [a, .sym eps], mkOr [b], mkOr [a, b]]) := by
  refine .cat _ ?_
  intro x hx
  simp only [List.mem_cons, List.not_mem_nil, or_false] at hx
  rcases hx with rfl | rfl | rfl <;>
  · first | refine .cat _ ?_ | refine .or _ ?_
    intro y hy
    simp only [List.mem_cons, List.not_mem_nil, or_false] at hy
    rcases hy with rfl | rfl <;> exact .sym _

/-- An alternation that any program makes is one `any`, or holds no `any`, no controls, no
alternations, and no sequences with one item. -/
theorem C44_or_flat {l : List Ex} (h : Built (.or l)) :
    (∃ x, l = [x] ∧ isAny x = true) ∨ ∀ x ∈ l, isAny x = false ∧
      ((∃ n, x = .sym n ∧ isControl n = false) ∨ x = .plain ∨ ∃ m, x = .cat m ∧ m.length ≠ 1) := by
  have hn := built_normal h
  simp only [Normal] at hn
  rcases hn.2 with h1 | ⟨h1, _⟩
  · exact .inl h1
  · refine .inr fun x hx => ⟨(h1 x hx).1, ?_⟩
    have := (h1 x hx).2
    cases x with
    | sym n => exact .inl ⟨n, rfl, this⟩
    | any => exact absurd this id
    | plain => exact .inr (.inl rfl)
    | cat m => exact .inr (.inr ⟨m, rfl, this⟩)
    | or m => exact absurd this id

/-- No alternative is accepted by the alternatives before it together, and none accepts all of
them. -/
theorem C44_or_no_redundant {p r : List Ex} {x : Ex} (h : Built (.or (p ++ x :: r)))
    (hp : p ≠ []) : accepts (.or p) x = false ∧ accepts x (.or p) = false := by
  have hn := built_normal h
  simp only [Normal] at hn
  rcases hn.2 with ⟨y, hy, _⟩ | ⟨_, hc⟩
  · cases p with
    | nil => exact absurd rfl hp
    | cons q p => simp at hy
  · exact hc p x r rfl

example : mkOr [a, mkOr [a, b], mkCat [a, b], b] = .or ([a, b] ++ [mkCat [a, b]]) := by
  simp [mkOr, mkCat, addOrs, addOr, addCats, addCat, orStep, hasAny, isAny, a, b, accepts, symbols,
    orSymbols, catSymbols, catLoop, addSymLists, eqL, Tok.eq, eps, isControl, memL, stateCount, stateCounts]

/-- A sequence given as an argument may be replaced by its items, wherever it is, unless it is
`any`: grouping does not change the resulting sequence. -/
theorem C44_cat_grouping_partial {xs ys zs : List Ex} (hy : ∀ x ∈ ys, Built x)
    (ha : isAny (mkCat ys) = false) :
    mkCat (xs ++ [mkCat ys] ++ zs) = mkCat (xs ++ ys ++ zs) := by
  have hyn := built_normalL hy
  show Ex.cat _ = Ex.cat _
  congr 1
  rw [addCats_append, addCats_append, addCats_append, addCats_append]
  congr 1
  have : addCats (addCats [] xs) [mkCat ys] = addCat (addCats [] xs) (mkCat ys) := by simp [addCats]
  rw [this]
  exact addCat_mkCat hyn ha _

example : isAny (mkCat [a, b]) = false ∧
    mkCat [a, mkCat [a, b], b] = .cat [a, a, b, b] := by
  simp [mkCat, addCats, addCat, isAny, a, b, isControl]

/-- Associativity of `+`. -/
theorem C44_cat_assoc_partial {p q r : Ex} (hp : Built p) (hq : Built q) (hr : Built r)
    (h1 : isAny (mkCat [p, q]) = false) (h2 : isAny (mkCat [q, r]) = false) :
    mkCat [mkCat [p, q], r] = mkCat [p, mkCat [q, r]] := by
  have e1 := C44_cat_grouping_partial (xs := []) (ys := [p, q]) (zs := [r]) (by simp [hp, hq]) h1
  have e2 := C44_cat_grouping_partial (xs := [p]) (ys := [q, r]) (zs := []) (by simp [hq, hr]) h2
  simp only [List.nil_append, List.append_nil, List.cons_append] at e1 e2
  rw [e1, e2]

example : isAny (mkCat [a, mkOr [a, b]]) = false ∧ isAny (mkCat [mkOr [a, b], .any]) = false := by
  constructor
  · simp [mkCat, mkOr, addCats, addCat, addOrs, addOr, orStep, isAny, hasAny, a, b, isControl, accepts,
      symbols, orSymbols, memL, eqL, Tok.eq]
  · simp [mkCat, mkOr, addCats, addCat, addOrs, addOr, orStep, isAny, hasAny, a, b, isControl, accepts,
      symbols, orSymbols, memL, eqL, Tok.eq]

/-- With `any` the grouping shows: a sequence that is `any` is kept as it is. -/
theorem C44_cat_grouping_any :
    mkCat [mkCat [.any, .sym eps], a] ≠ mkCat [.any, mkCat [.sym eps, a]] := by
  simp [mkCat, addCats, addCat, isAny, a, isControl, eps]

/-- The neutral elements: a control symbol and the empty sequence. -/
theorem C44_cat_unit {xs ys : List Ex} (n : Nat) (hn : isControl n = true) :
    mkCat (xs ++ [.sym n] ++ ys) = mkCat (xs ++ ys) ∧
    mkCat (xs ++ [mkCat []] ++ ys) = mkCat (xs ++ ys) := by
  constructor
  · show Ex.cat _ = Ex.cat _
    congr 1
    rw [addCats_append, addCats_append, addCats_append]
    simp [addCats, addCat, hn]
  · show Ex.cat _ = Ex.cat _
    congr 1
    rw [addCats_append, addCats_append, addCats_append]
    simp [addCats, addCat, mkCat, isAny]

example : isControl eps = true := rfl

/-- The symbol lists of a sequence: one list of every item after the other, in every combination.
Control symbols are skipped. -/
theorem C44_cat_language {xs : List Ex} (h : ∀ x ∈ xs, Built x) :
    symbols (mkCat xs) = (xs.map contrib).foldr conc [[.sy eps]] := by
  have e := addCats_symbols xs [] (built_normalL h)
  rw [mkCat, e, symbols_cat_nil]
  have key : ∀ (L : List (List (List Tok))) (acc : List (List Tok)),
      L.foldl conc acc = conc acc (L.foldr conc [[.sy eps]]) := by
    intro L
    induction L with
    | nil => intro acc; simp [conc_eps_right]
    | cons X L ih => intro acc; simp only [List.foldl_cons, List.foldr_cons]; rw [ih, conc_assoc]
  rw [key, conc_eps_left]

/-- Also with `any`, grouping never changes the symbol lists or their order. -/
theorem C44_cat_symbols_assoc {p q r : Ex} (hp : Built p) (hq : Built q) (hr : Built r) :
    symbols (mkCat [mkCat [p, q], r]) = symbols (mkCat [p, mkCat [q, r]]) := by
  have b1 : Built (mkCat [p, q]) := .cat _ (by simp [hp, hq])
  have b2 : Built (mkCat [q, r]) := .cat _ (by simp [hq, hr])
  rw [C44_cat_language (by simp [b1, hr]), C44_cat_language (by simp [hp, b2])]
  have c1 : contrib (mkCat [p, q]) = symbols (mkCat [p, q]) := rfl
  have c2 : contrib (mkCat [q, r]) = symbols (mkCat [q, r]) := rfl
  simp only [List.map_cons, List.map_nil, List.foldr_cons, List.foldr_nil, c1, c2]
  rw [C44_cat_language (by simp [hp, hq]), C44_cat_language (by simp [hq, hr])]
  simp only [List.map_cons, List.map_nil, List.foldr_cons, List.foldr_nil, conc_eps_right, conc_assoc]

/-- The symbol lists of an alternation are those of its arguments, if none of them is `any` or a
control symbol. -/
theorem C44_or_language_partial {xs : List Ex} (hb : ∀ x ∈ xs, Built x)
    (ha : ∀ x ∈ xs, isAny x = false) (hc : ∀ n, Ex.sym n ∈ xs → isControl n = false) (z : List Tok) :
    memL z (symbols (mkOr xs)) = true ↔ ∃ x ∈ xs, memL z (symbols x) = true := by
  refine mkOr_lang hb ha ?_ z
  intro x hx
  cases x with
  | sym n => exact hc n hx
  | _ => trivial

example : (∀ x ∈ [a, mkCat [a, b]], isAny x = false) ∧
    memL [.sy 10, .sy 11] (symbols (mkOr [a, mkCat [a, b]])) = true := by
  simp [mkOr, mkCat, addOrs, addOr, addCats, addCat, orStep, hasAny, isAny, a, b, accepts, symbols,
    orSymbols, catSymbols, catLoop, addSymLists, eqL, Tok.eq, eps, isControl, memL]

/-- The alternation is `any` if and only if one argument is. -/
theorem C44_or_any {xs : List Ex} (hb : ∀ x ∈ xs, Built x) :
    isAny (mkOr xs) = true ↔ ∃ x ∈ xs, isAny x = true := by
  constructor
  · intro h
    cases hx : xs.any isAny with
    | true => simpa [List.any_eq_true] using hx
    | false =>
      have : ∀ x ∈ xs, isAny x = false := by simpa [List.any_eq_false] using hx
      rw [isAny_mkOr_false hb this] at h
      cases h
  · exact any_found xs [] (built_normalL hb) orOk_nil

/-- Grouping and order of the alternatives never change the language. -/
theorem C44_or_grouping_partial {p q r : Ex} (hp : Built p) (hq : Built q) (hr : Built r)
    (ha : isAny p = false ∧ isAny q = false ∧ isAny r = false)
    (hc : ∀ n, isControl n = true → p ≠ .sym n ∧ q ≠ .sym n ∧ r ≠ .sym n) (z : List Tok) :
    (memL z (symbols (mkOr [mkOr [p, q], r])) = true ↔ memL z (symbols (mkOr [p, mkOr [q, r]])) = true) ∧
    (memL z (symbols (mkOr [p, q])) = true ↔ memL z (symbols (mkOr [q, p])) = true) := by
  have nc : ∀ x, x = p ∨ x = q ∨ x = r → NotControl x := by
    intro x hx
    cases x with
    | sym n =>
      show isControl n = false
      rw [Bool.eq_false_iff]
      intro h
      have := hc n h
      rcases hx with h | h | h
      · exact this.1 h.symm
      · exact this.2.1 h.symm
      · exact this.2.2 h.symm
    | _ => trivial
  have two : ∀ x y, Built x → Built y → isAny x = false → isAny y = false → NotControl x → NotControl y →
      ∀ z, (Lang (mkOr [x, y]) z ↔ Lang x z ∨ Lang y z) := by
    intro x y bx by' ax ay cx cy z
    rw [mkOr_lang (by simp [bx, by']) (by simp [ax, ay]) (by simp [cx, cy])]
    simp
  have pq : Built (mkOr [p, q]) := .or _ (by simp [hp, hq])
  have qr : Built (mkOr [q, r]) := .or _ (by simp [hq, hr])
  have apq := isAny_mkOr_false (xs := [p, q]) (by simp [hp, hq]) (by simp [ha])
  have aqr := isAny_mkOr_false (xs := [q, r]) (by simp [hq, hr]) (by simp [ha])
  have cp := nc p (by simp)
  have cq := nc q (by simp)
  have cr := nc r (by simp)
  constructor
  · show Lang _ z ↔ Lang _ z
    rw [two _ _ pq hr apq ha.2.2 trivial cr, two _ _ hp qr ha.1 aqr cp trivial,
      two _ _ hp hq ha.1 ha.2.1 cp cq, two _ _ hq hr ha.2.1 ha.2.2 cq cr, or_assoc]
  · show Lang _ z ↔ Lang _ z
    rw [two _ _ hp hq ha.1 ha.2.1 cp cq, two _ _ hq hp ha.2.1 ha.1 cq cp, or_comm]

/-- But grouping changes the alternation itself: with `q = b c` and `r = {b, d} c` the first grouping
keeps `q` beside `r`, the second drops it. -/
theorem C44_or_grouping_fails :
    mkOr [mkOr [a, mkCat [b, c]], mkCat [mkOr [b, d], c]] =
      .or [a, .cat [b, c], .cat [.or [b, d], c]] ∧
    mkOr [a, mkOr [mkCat [b, c], mkCat [mkOr [b, d], c]]] = .or [a, .cat [.or [b, d], c]] := by
  constructor <;>
  simp [mkOr, mkCat, addOrs, addOr, addCats, addCat, orStep, hasAny, isAny, a, b, c, d, accepts, symbols,
    orSymbols, catSymbols, catLoop, addSymLists, eqL, Tok.eq, eps, isControl, memL, stateCount, stateCounts]

/-! ## C45 -/

/-- Acceptance of expressions that are not `any`: the accepting one has symbol lists, at least as
many as the other one, and among them all those of the other. -/
theorem C45_accepts {x y : Ex} (hx : isAny x = false) (hy : isAny y = false) :
    accepts x y = true ↔ symbols x ≠ [] ∧ (symbols y).length ≤ (symbols x).length ∧
      ∀ l ∈ symbols y, memL l (symbols x) = true := accepts_iff hx hy

/-- An expression accepts itself, if it has symbol lists and none comes from an empty alternation. -/
theorem C45_refl {x : Ex} (h : symbols x ≠ []) (hf : ∀ l ∈ symbols x, Tok.fresh ∉ l) :
    accepts x x = true ∧ accepts x x (equivalent := true) = true := by
  have hm : ∀ l ∈ symbols x, memL l (symbols x) = true := fun l hl => memL_iff.2 ⟨hl, hf l hl⟩
  cases ha : isAny x with
  | true => simp [accepts, ha]
  | false =>
    refine ⟨(accepts_iff ha ha).2 ⟨h, Nat.le_refl _, hm⟩, ?_⟩
    have hl : (symbols x).length ≠ 0 := by simpa [List.length_eq_zero_iff] using h
    simp [accepts, ha, h, List.all_eq_true]
    exact hm

example : symbols (mkCat [a, mkOr [a, b]]) = [[.sy 10, .sy 10], [.sy 10, .sy 11]] := by
  simp [mkOr, mkCat, addOrs, addOr, addCats, addCat, orStep, hasAny, isAny, a, b, accepts, symbols,
    orSymbols, catSymbols, catLoop, addSymLists, eqL, Tok.eq, eps, isControl, memL]

/-- Acceptance is transitive, if the one in the middle is not `any`. -/
theorem C45_trans {x y z : Ex} (hy : isAny y = false) (h1 : accepts x y = true)
    (h2 : accepts y z = true) : accepts x z = true := by
  cases hx : isAny x with
  | true => exact accepts_any_left hx
  | false =>
    cases hz : isAny z with
    | true => exact accepts_any_right hz
    | false =>
      obtain ⟨a1, a2, a3⟩ := (accepts_iff hx hy).1 h1
      obtain ⟨_, b2, b3⟩ := (accepts_iff hy hz).1 h2
      exact (accepts_iff hx hz).2 ⟨a1, Nat.le_trans b2 a2, fun l hl => a3 l (memL_iff.1 (b3 l hl)).1⟩

example : accepts (mkOr [a, b]) a = true ∧ accepts a a = true ∧ isAny a = false := by
  simp [mkOr, addOrs, addOr, orStep, hasAny, isAny, a, b, accepts, symbols, orSymbols, eqL, Tok.eq,
    isControl, memL]

/-- Two expressions that accept each other have the same symbol lists, and equally many. -/
theorem C45_antisymm {x y : Ex} (hx : isAny x = false) (hy : isAny y = false)
    (h1 : accepts x y = true) (h2 : accepts y x = true) :
    (∀ l, l ∈ symbols x ↔ l ∈ symbols y) ∧ (symbols x).length = (symbols y).length := by
  obtain ⟨_, a2, a3⟩ := (accepts_iff hx hy).1 h1
  obtain ⟨_, b2, b3⟩ := (accepts_iff hy hx).1 h2
  exact ⟨fun l => ⟨fun h => (memL_iff.1 (b3 l h)).1, fun h => (memL_iff.1 (a3 l h)).1⟩,
    Nat.le_antisymm b2 a2⟩

/-- `any` accepts every expression and every expression accepts `any`, but only `any` is equivalent
to it. -/
theorem C45_any {x y : Ex} (h : isAny x = true) :
    accepts x y = true ∧ accepts y x = true ∧
    (accepts x y (equivalent := true) = isAny y) ∧ (accepts y x (equivalent := true) = isAny y) := by
  refine ⟨accepts_any_left h, accepts_any_right h, ?_, ?_⟩ <;> simp [accepts, h]

example : isAny (mkCat [mkOr [.any]]) = true := by
  simp [mkCat, mkOr, addOrs, addCats, addCat, hasAny, isAny]

/-- The empty alternation accepts no expression that has symbol lists, not even itself, and no
expression but `any` accepts it. -/
theorem C45_nothing {x : Ex} (h : isAny x = false) :
    (accepts (mkOr []) x = true ↔ symbols x = []) ∧ accepts x (mkOr []) = false := by
  have : mkOr [] = .or [] := by simp [mkOr, addOrs]
  rw [this]
  exact ⟨empty_or_accepts h, accepts_empty_or h⟩

/-- A sequence of symbols accepts exactly the equal sequence: same length, same symbols. -/
theorem C45_sequences (ns ms : List Nat) (hn : ∀ n ∈ ns, isControl n = false)
    (hm : ∀ n ∈ ms, isControl n = false) :
    accepts (mkCat (ns.map .sym)) (mkCat (ms.map .sym)) = true ↔ ns = ms := by
  have build : ∀ ns : List Nat, (∀ n ∈ ns, isControl n = false) →
      mkCat (ns.map .sym) = .cat (ns.map .sym) := by
    intro ns h
    have : NormalL (ns.map Ex.sym) := normalL_iff.2 (by simp [Normal])
    have h2 : ∀ x ∈ ns.map Ex.sym, CatItem x := by
      intro x hx
      obtain ⟨n, hn, rfl⟩ := List.mem_map.1 hx
      exact .inr (h n hn)
    simpa [mkCat] using addCats_normal _ [] this h2
  have syms : ∀ ns : List Nat, (∀ n ∈ ns, isControl n = false) →
      symbols (.cat (ns.map .sym)) = [if ns = [] then [.sy eps] else ns.map .sy] := by
    intro ns
    induction ns with
    | nil => intro _; simp [symbols_cat_nil]
    | cons n ns ih =>
      intro h
      rw [List.map_cons, symbols_cat_cons, ih (fun m hm => h m (by simp [hm]))]
      have hne : n ≠ eps := by
        intro e
        have := h n (by simp)
        rw [e] at this
        simp [isControl, eps] at this
      simp only [symbols, conc, List.flatMap_cons, List.flatMap_nil, List.append_nil, List.map_cons,
        List.map_nil]
      congr 1
      by_cases e : ns = []
      · subst e
        simp [addSymLists_eps_right]
      · have h1 : ([Tok.sy n] : List Tok) ≠ [.sy eps] := by simp [hne]
        have h2 : ns.map Tok.sy ≠ [.sy eps] := by
          intro e2
          match ns, h with
          | [], _ => simp at e2
          | [m], h =>
            simp only [List.map_cons, List.map_nil, List.cons.injEq, Tok.sy.injEq, and_true] at e2
            have := h m (by simp)
            rw [e2] at this
            simp [isControl, eps] at this
          | _ :: _ :: _, _ => simp at e2
        simp [e, addSymLists, eqL_eps, h1, h2]
  have notAny : ∀ ns : List Nat, isAny (.cat (ns.map .sym)) = false := by
    intro ns
    match ns with
    | [] => rfl
    | [_] => rfl
    | _ :: _ :: _ => rfl
  rw [build ns hn, build ms hm, accepts_iff (notAny _) (notAny _), syms ns hn, syms ms hm]
  have inj : ∀ (l l' : List Nat), l.map Tok.sy = l'.map Tok.sy → l = l' := by
    intro l l' h
    have hf : Function.Injective Tok.sy := fun _ _ h => by simpa using h
    exact List.map_inj_right (f := Tok.sy) (fun _ _ h => hf h) |>.1 h
  have eps1 : ∀ (l : List Nat), (∀ n ∈ l, isControl n = false) → l.map Tok.sy ≠ [.sy eps] := by
    intro l h e
    have e' := inj l [eps] e
    subst e'
    have := h eps (by simp)
    simp [isControl, eps] at this
  have fresh : ∀ (l : List Nat), Tok.fresh ∉ (if l = [] then [Tok.sy eps] else l.map .sy) := by
    intro l; split <;> simp
  simp only [memL_iff, List.mem_singleton, forall_eq, ne_eq, List.cons_ne_nil, not_false_eq_true,
    List.length_singleton, Nat.le_refl, true_and, fresh, and_true]
  constructor
  · intro e
    by_cases h1 : ms = [] <;> by_cases h2 : ns = []
    · rw [h1, h2]
    · simp only [h1, h2, if_true, if_false] at e
      exact absurd e.symm (eps1 ns hn)
    · simp only [h1, h2, if_true, if_false] at e
      exact absurd e (eps1 ms hm)
    · simp only [h1, h2, if_false] at e
      exact (inj _ _ e).symm
  · rintro rfl
    rfl

example : (∀ n ∈ [10, 11], isControl n = false) := by simp [isControl]

/-- Item by item: if the items of one sequence accept those of another, the sequence accepts the
other. -/
theorem C45_items {x y x' y' : Ex} (bx : Built x) (by' : Built y) (bx' : Built x') (by2 : Built y')
    (ax : isAny x = false) (ay : isAny y = false) (ax' : isAny x' = false) (ay' : isAny y' = false)
    (hc : ∀ n, isControl n = true → x ≠ .sym n ∧ y ≠ .sym n ∧ x' ≠ .sym n ∧ y' ≠ .sym n)
    (h1 : accepts x x' = true) (h2 : accepts y y' = true) :
    accepts (mkCat [x, y]) (mkCat [x', y']) = true := by
  have con : ∀ z : Ex, (∀ n, isControl n = true → z ≠ .sym n) → contrib z = symbols z := by
    intro z h
    cases z with
    | sym n =>
      cases hn : isControl n with
      | true => exact absurd rfl (h n hn)
      | false => simp [contrib, hn, symbols]
    | _ => rfl
  have s1 : symbols (mkCat [x, y]) = conc (symbols x) (symbols y) := by
    rw [C44_cat_language (by simp [bx, by'])]
    simp [con x (fun n h => (hc n h).1), con y (fun n h => (hc n h).2.1), conc_eps_right]
  have s2 : symbols (mkCat [x', y']) = conc (symbols x') (symbols y') := by
    rw [C44_cat_language (by simp [bx', by2])]
    simp [con x' (fun n h => (hc n h).2.2.1), con y' (fun n h => (hc n h).2.2.2), conc_eps_right]
  cases hA : isAny (mkCat [x, y]) with
  | true => exact accepts_any_left hA
  | false =>
    cases hB : isAny (mkCat [x', y']) with
    | true => exact accepts_any_right hB
    | false =>
      obtain ⟨a1, a2, a3⟩ := (accepts_iff ax ax').1 h1
      obtain ⟨b1, b2, b3⟩ := (accepts_iff ay ay').1 h2
      have len : ∀ X Y : List (List Tok), (conc X Y).length = X.length * Y.length := by
        intro X Y
        induction X with
        | nil => simp [conc]
        | cons l X ih =>
          have e : conc (l :: X) Y = Y.map (addSymLists l) ++ conc X Y := rfl
          rw [e, List.length_append, ih, List.length_map, List.length_cons, Nat.succ_mul, Nat.add_comm]
      rw [accepts_iff hA hB, s1, s2]
      refine ⟨?_, ?_, ?_⟩
      · intro e
        have : (conc (symbols x) (symbols y)).length = 0 := by rw [e]; rfl
        rw [len] at this
        rcases Nat.mul_eq_zero.1 this with h | h
        · exact a1 (List.length_eq_zero_iff.1 h)
        · exact b1 (List.length_eq_zero_iff.1 h)
      · rw [len, len]
        exact Nat.mul_le_mul a2 b2
      · intro l hl
        simp only [conc, List.mem_flatMap, List.mem_map] at hl
        obtain ⟨p, hp, q, hq, rfl⟩ := hl
        have hp' := memL_iff.1 (a3 p hp)
        have hq' := memL_iff.1 (b3 q hq)
        rw [memL_iff]
        constructor
        · simp only [conc, List.mem_flatMap, List.mem_map]
          exact ⟨p, hp'.1, q, hq'.1, rfl⟩
        · simp only [addSymLists]
          split
          · exact hq'.2
          · split
            · exact hp'.2
            · simp [hp'.2, hq'.2]

/-- A sequence with `any` and something else has no symbol lists: it accepts nothing but `any`, and
every expression with symbol lists accepts it. -/
theorem C45_any_inside :
    symbols (mkCat [a, .any]) = [] ∧ isAny (mkCat [a, .any]) = false ∧
    accepts (mkCat [a, .any]) (mkCat [a, b]) = false ∧ accepts b (mkCat [a, .any]) = true := by
  simp [mkCat, addCats, addCat, isAny, a, b, accepts, symbols, catSymbols, catLoop, isControl]

/-- `is_equivalent` is not symmetric: symbol lists are counted with repetitions but compared as sets. -/
theorem C45_equivalent_not_symmetric :
    let x := mkCat [mkOr [a, mkCat [a, a]], mkOr [a, mkCat [a, a]]]
    let n k := mkCat (List.replicate k a)
    let p := mkOr [x, n 7, n 9]
    let q := mkOr [n 3, n 7, x]
    accepts p q (equivalent := true) = true ∧ accepts q p (equivalent := true) = false := by
  decide +kernel

/-- An alternation may reject one of its own alternatives, because it counts repeated symbol lists. -/
theorem C45_or_rejects_alternative :
    let r := mkCat [mkOr [b, d, .sym 14], c]
    let item := mkOr [a, mkCat [b, c], mkCat [d, c], r]
    accepts (mkOr [mkOr [r, .sym 15], item]) item = false := by
  decide +kernel

/-! ## C57 -/

/-- A symbol list other than `[ℰ]` and `[◎]` is contained if and only if it is not empty and is a part
of one symbol list of the item, at its beginning if `head` is set and at its end if `tail` is set. -/
theorem C57_contains_list {x : Ex} {t : List Tok} (head tail : Bool) (ha : isAny x = false)
    (h1 : t ≠ [.sy eps]) (h2 : t ≠ [.sy nor]) :
    containsSymbolList x t head tail = true ↔ t ≠ [] ∧ Tok.fresh ∉ t ∧ ∃ l ∈ symbols x,
      ∃ p q, l = p ++ t ++ q ∧ (head = true → p = []) ∧ (tail = true → q = []) := by
  have e1 : eqL t [.sy eps] = false := by rw [Bool.eq_false_iff]; exact fun h => h1 (eqL_eq h)
  have e2 : eqL t [.sy nor] = false := by rw [Bool.eq_false_iff]; exact fun h => h2 (eqL_eq h)
  simp only [containsSymbolList, e1, e2, ha, Bool.false_eq_true, if_false, List.any_eq_true]
  constructor
  · rintro ⟨l, hl, h⟩
    obtain ⟨h3, h4, h5⟩ := (searchList_iff t head tail _ l rfl).1 h
    exact ⟨h3, h4, l, hl, h5⟩
  · rintro ⟨h3, h4, l, hl, h5⟩
    exact ⟨l, hl, (searchList_iff t head tail _ l rfl).2 ⟨h3, h4, h5⟩⟩

example : containsSymbolList (mkCat [a, b, c]) [.sy 11, .sy 12] false true = true ∧
    containsSymbolList (mkCat [a, b, c]) [.sy 11, .sy 12] true false = false := by decide +kernel

/-- Every item contains `[ℰ]`, none contains `[◎]`, and `any` contains every other list. -/
theorem C57_special {x : Ex} (t : List Tok) (head tail : Bool) :
    containsSymbolList x [.sy eps] head tail = true ∧ containsSymbolList x [.sy nor] head tail = false ∧
    (isAny x = true → t ≠ [.sy nor] → containsSymbolList x t head tail = true) := by
  refine ⟨by simp [containsSymbolList, eqL, Tok.eq], by simp [containsSymbolList, eqL, Tok.eq, nor, eps], ?_⟩
  intro h h2
  have e2 : eqL t [.sy nor] = false := by rw [Bool.eq_false_iff]; exact fun h => h2 (eqL_eq h)
  simp [containsSymbolList, h, e2]

/-- One item contains another, neither of them `any`, if and only if one symbol list of the other is
`[ℰ]` or is found as above. -/
theorem C57_contains {x y : Ex} (head tail : Bool) (hx : isAny x = false) (hy : isAny y = false) :
    contains x y head tail = true ↔ ∃ t ∈ symbols y, t = [.sy eps] ∨ (t ≠ [.sy nor] ∧ t ≠ [] ∧
      Tok.fresh ∉ t ∧ ∃ l ∈ symbols x,
        ∃ p q, l = p ++ t ++ q ∧ (head = true → p = []) ∧ (tail = true → q = [])) := by
  simp only [contains, hx, hy, Bool.or_self, Bool.false_eq_true, if_false, List.any_eq_true]
  constructor
  · rintro ⟨t, ht, h⟩
    refine ⟨t, ht, ?_⟩
    by_cases h1 : t = [.sy eps]
    · exact .inl h1
    · by_cases h2 : t = [.sy nor]
      · rw [h2, (C57_special [] head tail).2.1] at h
        cases h
      · exact .inr ⟨h2, (C57_contains_list head tail hx h1 h2).1 h⟩
  · rintro ⟨t, ht, h⟩
    refine ⟨t, ht, ?_⟩
    by_cases h1 : t = [.sy eps]
    · rw [h1]; exact (C57_special [] head tail).1
    · rcases h with h | ⟨h2, h⟩
      · exact absurd h h1
      · exact (C57_contains_list head tail hx h1 h2).2 h

example : contains (mkCat [a, mkOr [b, c]]) (mkOr [d, mkCat [a, c]]) true true = true := by
  decide +kernel

/-- Containment of built expressions that accept each other: an expression whose symbol lists are
accepted is contained. -/
theorem C57_accepted_is_contained {x y : Ex} (hx : isAny x = false) (hy : isAny y = false)
    (h : accepts x y = true) (l : List Tok) (hl : l ∈ symbols y) (h1 : l ≠ [.sy nor]) (h2 : l ≠ []) :
    contains x y true true = true := by
  rw [C57_contains true true hx hy]
  refine ⟨l, hl, .inr ⟨h1, h2, ?_⟩⟩
  have := memL_iff.1 (((accepts_iff hx hy).1 h).2.2 l hl)
  exact ⟨this.2, l, this.1, [], [], by simp, fun _ => rfl, fun _ => rfl⟩

example : accepts (mkOr [a, b]) b = true ∧ symbols b = [[.sy 11]] := by decide +kernel

/-! ## C58 -/

/-- The context test of a rule on one side: a context of the rule with items fits if and only if one
of its symbol lists ends (begins) one of the symbol lists of the actual context. -/
theorem C58_side {r x : Ex} (hr : isAny r = false) (hx : isAny x = false) (ht : truthy r = true) :
    (isSuffixOf r x = true ↔ ∃ t ∈ symbols r, t = [.sy eps] ∨ (t ≠ [.sy nor] ∧ t ≠ [] ∧
      Tok.fresh ∉ t ∧ ∃ l ∈ symbols x, ∃ p, l = p ++ t)) ∧
    (isPrefixOf r x = true ↔ ∃ t ∈ symbols r, t = [.sy eps] ∨ (t ≠ [.sy nor] ∧ t ≠ [] ∧
      Tok.fresh ∉ t ∧ ∃ l ∈ symbols x, ∃ q, l = t ++ q)) := by
  constructor
  · simp only [isSuffixOf, tailMatches, ht, Bool.not_true, Bool.and_false, Bool.false_eq_true, if_false]
    rw [C57_contains false true hx hr]
    constructor
    · rintro ⟨t, h1, h2⟩
      refine ⟨t, h1, h2.imp id ?_⟩
      rintro ⟨h3, h4, h5, l, hl, p, q, h6, _, h7⟩
      exact ⟨h3, h4, h5, l, hl, p, by rw [h6, h7 rfl, List.append_nil]⟩
    · rintro ⟨t, h1, h2⟩
      refine ⟨t, h1, h2.imp id ?_⟩
      rintro ⟨h3, h4, h5, l, hl, p, h6⟩
      exact ⟨h3, h4, h5, l, hl, p, [], by simp [h6], by simp, fun _ => rfl⟩
  · simp only [isPrefixOf, headMatches, ht, Bool.not_true, Bool.and_false, Bool.false_eq_true, if_false]
    rw [C57_contains true false hx hr]
    constructor
    · rintro ⟨t, h1, h2⟩
      refine ⟨t, h1, h2.imp id ?_⟩
      rintro ⟨h3, h4, h5, l, hl, p, q, h6, h7, _⟩
      exact ⟨h3, h4, h5, l, hl, q, by rw [h6, h7 rfl, List.nil_append]⟩
    · rintro ⟨t, h1, h2⟩
      refine ⟨t, h1, h2.imp id ?_⟩
      rintro ⟨h3, h4, h5, l, hl, q, h6⟩
      exact ⟨h3, h4, h5, l, hl, [], q, by simp [h6], fun _ => rfl, by simp⟩

example : isSuffixOf (mkOr [a, b]) (mkCat [c, b]) = true ∧ isPrefixOf (mkOr [a, b]) (mkCat [c, b]) = false := by
  decide +kernel

/-- An empty context of the rule fits only an empty actual context. -/
theorem C58_empty_rule_context {x : Ex} (ht : truthy x = true) :
    isSuffixOf (mkCat []) x = false ∧ isPrefixOf (mkCat []) x = false ∧
    isSuffixOf (mkCat []) (mkCat []) = true ∧ isPrefixOf (mkCat []) (mkCat []) = true := by
  have e : mkCat [] = .cat [] := by simp [mkCat, addCats]
  rw [e]
  refine ⟨?_, ?_, ?_, ?_⟩
  · simp only [isSuffixOf, tailMatches, ht]; rfl
  · simp only [isPrefixOf, headMatches, ht]; rfl
  · simp [isSuffixOf, tailMatches, contains, truthy, isAny, symbols_cat_nil, (C57_special [] _ _).1]
  · simp [isPrefixOf, headMatches, contains, truthy, isAny, symbols_cat_nil, (C57_special [] _ _).1]

example : truthy (mkCat [a, b]) = true := by decide +kernel

/-- A context that is `any` fits every actual context other than `nor`. -/
theorem C58_any_context {r x : Ex} (hr : isAny r = true) (hx : x ≠ .sym nor) :
    isSuffixOf r x = true ∧ isPrefixOf r x = true ∧ matchesAll r x = true := by
  have hn : isNor x = false := by
    cases x with
    | sym n =>
      simp only [isNor, beq_eq_false_iff_ne]
      intro e
      exact hx (by rw [e])
    | _ => rfl
  have hrn : isNor r = false := by
    cases r with
    | sym n => simp [isAny] at hr
    | _ => rfl
  refine ⟨?_, ?_, ?_⟩
  · simp [isSuffixOf, tailMatches, contains, hr, hn, hrn]
  · simp [isPrefixOf, headMatches, contains, hr, hn, hrn]
  · simp [matchesAll, contains, hr, hn, hrn]

namespace ExprAux

/-- A symbol list of the rule ends a symbol list of the actual context. -/
def Ends (r x : Ex) : Prop := ∃ t ∈ symbols r, t = [.sy eps] ∨ (t ≠ [.sy nor] ∧ t ≠ [] ∧
  Tok.fresh ∉ t ∧ ∃ l ∈ symbols x, ∃ p, l = p ++ t)

/-- A symbol list of the rule begins a symbol list of the actual context. -/
def Begins (r x : Ex) : Prop := ∃ t ∈ symbols r, t = [.sy eps] ∨ (t ≠ [.sy nor] ∧ t ≠ [] ∧
  Tok.fresh ∉ t ∧ ∃ l ∈ symbols x, ∃ q, l = t ++ q)

/-- A symbol list of the actual context is empty or one of the rule's. -/
def Whole (r x : Ex) : Prop := ∃ t ∈ symbols x, t = [.sy eps] ∨ (t ≠ [.sy nor] ∧ t ≠ [] ∧
  Tok.fresh ∉ t ∧ t ∈ symbols r)

end ExprAux

/-- The context test of a rule whose contexts have items, on both sides, before and after. -/
theorem C58_context {pre fol p f : Al} (fromBos toEos : Bool)
    (h : ∀ x, x = pre.left ∨ x = pre.right ∨ x = fol.left ∨ x = fol.right ∨ x = p.left ∨ x = p.right ∨
      x = f.left ∨ x = f.right → isAny x = false)
    (ht : ∀ x, x = pre.left ∨ x = pre.right ∨ x = fol.left ∨ x = fol.right → truthy x = true) :
    contextMatches pre fol fromBos toEos p f = true ↔
      (if fromBos then Whole pre.left p.left ∧ Whole pre.right p.right
        else Ends pre.left p.left ∧ Ends pre.right p.right) ∧
      (if toEos then Whole fol.left f.left ∧ Whole fol.right f.right
        else Begins fol.left f.left ∧ Begins fol.right f.right) := by
  have whole : ∀ {r x : Ex}, isAny r = false → isAny x = false → (matchesAll r x = true ↔ Whole r x) := by
    intro r x hr hx
    rw [matchesAll, C57_contains true true hr hx]
    constructor
    · rintro ⟨t, h1, h2⟩
      refine ⟨t, h1, h2.imp id ?_⟩
      rintro ⟨h3, h4, h5, l, hl, p, q, h6, h7, h8⟩
      refine ⟨h3, h4, h5, ?_⟩
      rw [h7 rfl, h8 rfl] at h6
      simp only [List.nil_append, List.append_nil] at h6
      exact h6 ▸ hl
    · rintro ⟨t, h1, h2⟩
      refine ⟨t, h1, h2.imp id ?_⟩
      rintro ⟨h3, h4, h5, h6⟩
      exact ⟨h3, h4, h5, t, h6, [], [], by simp, fun _ => rfl, fun _ => rfl⟩
  have ends : ∀ {r x : Ex}, isAny r = false → isAny x = false → truthy r = true →
      (isSuffixOf r x = true ↔ Ends r x) := fun hr hx ht => (C58_side hr hx ht).1
  have begins : ∀ {r x : Ex}, isAny r = false → isAny x = false → truthy r = true →
      (isPrefixOf r x = true ↔ Begins r x) := fun hr hx ht => (C58_side hr hx ht).2
  have a1 := h pre.left (by simp)
  have a2 := h pre.right (by simp)
  have a3 := h fol.left (by simp)
  have a4 := h fol.right (by simp)
  have a5 := h p.left (by simp)
  have a6 := h p.right (by simp)
  have a7 := h f.left (by simp)
  have a8 := h f.right (by simp)
  have t1 := ht pre.left (by simp)
  have t2 := ht pre.right (by simp)
  have t3 := ht fol.left (by simp)
  have t4 := ht fol.right (by simp)
  cases fromBos <;> cases toEos <;>
    simp [contextMatches, compareAl, whole a1 a5, whole a2 a6, whole a3 a7, whole a4 a8, ends a1 a5 t1,
      ends a2 a6 t2, begins a3 a7 t3, begins a4 a8 t4]

example : contextMatches ⟨b, b⟩ ⟨a, a⟩ false true ⟨mkCat [a, b], b⟩ ⟨a, a⟩ = true ∧
    contextMatches ⟨b, b⟩ ⟨a, a⟩ true false ⟨mkCat [a, b], b⟩ ⟨a, a⟩ = false ∧
    contextMatches ⟨b, b⟩ ⟨a, a⟩ false true ⟨mkCat [a, b], b⟩ ⟨mkCat [a, b], a⟩ = false := by decide +kernel

/-- Without a boundary flag, a rule that requires a context does not apply where there is none. -/
theorem C58_context_required {r : Ex} (hr : isAny r = false) (h : [.sy eps] ∉ symbols r) :
    isSuffixOf r (mkCat []) = false ∧ isPrefixOf r (mkCat []) = false := by
  have e : mkCat [] = .cat [] := by simp [mkCat, addCats]
  have ha : isAny (.cat []) = false := rfl
  have key : ∀ head tail, contains (.cat []) r head tail = false := by
    intro head tail
    rw [Bool.eq_false_iff]
    intro hc
    obtain ⟨t, ht, h1 | ⟨_, h3, _, l, hl, p, q, h5, _⟩⟩ := (C57_contains head tail ha hr).1 hc
    · exact h (h1 ▸ ht)
    · rw [symbols_cat_nil, List.mem_singleton] at hl
      rw [hl] at h5
      have h6 := congrArg List.length h5
      simp only [List.length_append, List.length_singleton] at h6
      have h7 : t.length ≠ 0 := by simpa [List.length_eq_zero_iff] using h3
      have hp : p = [] := List.length_eq_zero_iff.1 (by omega)
      have hq : q = [] := List.length_eq_zero_iff.1 (by omega)
      rw [hp, hq] at h5
      simp only [List.nil_append, List.append_nil] at h5
      exact h (h5 ▸ ht)
  rw [e]
  exact ⟨by simp [isSuffixOf, tailMatches, truthy, key], by simp [isPrefixOf, headMatches, truthy, key]⟩

example : [Tok.sy eps] ∉ symbols (mkOr [a, mkCat [a, b]]) := by decide +kernel

/-- With a boundary flag the whole context must match, but an empty context matches whatever the rule
requires: the comment in symbol.py:239-243 does not hold for `matches`. -/
theorem C58_boundary_ignores_requirement {r : Ex} (hr : isAny r = false) (following : Al) :
    matchesAll r (mkCat []) = true ∧
    contextMatches ⟨r, r⟩ following true false ⟨mkCat [], mkCat []⟩ following =
      compareAl isPrefixOf following following := by
  have e : mkCat [] = .cat [] := by simp [mkCat, addCats]
  have hm : matchesAll r (mkCat []) = true := by
    rw [e, matchesAll, C57_contains true true hr rfl]
    exact ⟨[.sy eps], by simp [symbols_cat_nil], .inl rfl⟩
  exact ⟨hm, by simp [contextMatches, compareAl, hm]⟩

example : contextMatches ⟨a, .any⟩ ⟨.any, .any⟩ true false ⟨mkCat [], mkCat []⟩ ⟨b, b⟩ = true ∧
    contextMatches ⟨a, .any⟩ ⟨.any, .any⟩ false false ⟨mkCat [], mkCat []⟩ ⟨b, b⟩ = false := by
  decide +kernel

end Nisaba.Props
