import Verif.Model.Expression
/-!
# Lemmas about expressions
-/
namespace Nisaba.Expr

/-! ## Symbol lists -/

theorem Tok.eq_iff {a b : Tok} : a.eq b = true ↔ a = b ∧ a ≠ .fresh := by
  cases a <;> cases b <;> simp [Tok.eq]

theorem eqL_eq {a b : List Tok} (h : eqL a b = true) : a = b := by
  induction a generalizing b with
  | nil => cases b <;> simp_all [eqL]
  | cons x a ih =>
    cases b with
    | nil => simp [eqL] at h
    | cons y b =>
      simp only [eqL, Bool.and_eq_true, Tok.eq_iff] at h
      rw [h.1.1, ih h.2]

theorem eqL_iff {a b : List Tok} : eqL a b = true ↔ a = b ∧ Tok.fresh ∉ a := by
  induction a generalizing b with
  | nil => cases b <;> simp [eqL]
  | cons x a ih =>
    cases b with
    | nil => simp [eqL]
    | cons y b =>
      simp only [eqL, Bool.and_eq_true, Tok.eq_iff, ih, List.cons.injEq, List.mem_cons, not_or]
      constructor
      · rintro ⟨⟨h1, h2⟩, h3, h4⟩
        exact ⟨⟨h1, h3⟩, Ne.symm h2, h4⟩
      · rintro ⟨⟨h1, h3⟩, h2, h4⟩
        exact ⟨⟨h1, Ne.symm h2⟩, h3, h4⟩

theorem memL_iff {l : List Tok} {ls : List (List Tok)} : memL l ls = true ↔ l ∈ ls ∧ Tok.fresh ∉ l := by
  simp only [memL, List.any_eq_true, eqL_iff]
  constructor
  · rintro ⟨x, hx, rfl, h⟩
    exact ⟨hx, h⟩
  · rintro ⟨h1, h2⟩
    exact ⟨l, h1, rfl, h2⟩

theorem eqL_eps {a : List Tok} : eqL a [.sy eps] = true ↔ a = [.sy eps] := by
  rw [eqL_iff]
  constructor
  · exact fun h => h.1
  · rintro rfl; simp

theorem addSymLists_eps_left (l : List Tok) : addSymLists [.sy eps] l = l := by
  simp [addSymLists, eqL_eps]

theorem addSymLists_eps_right (l : List Tok) : addSymLists l [.sy eps] = l := by
  unfold addSymLists
  by_cases h : l = [.sy eps] <;> simp [eqL_eps, h]

theorem addSymLists_assoc (a b c : List Tok) :
    addSymLists (addSymLists a b) c = addSymLists a (addSymLists b c) := by
  by_cases ha : a = [.sy eps]
  · subst ha; simp only [addSymLists_eps_left]
  · by_cases hb : b = [.sy eps]
    · subst hb; simp only [addSymLists_eps_left, addSymLists_eps_right]
    · by_cases hc : c = [.sy eps]
      · subst hc; simp only [addSymLists_eps_right]
      · have key : ∀ x y : List Tok, x ≠ [.sy eps] → y ≠ [.sy eps] → addSymLists x y = x ++ y := by
          intro x y hx hy
          simp [addSymLists, eqL_eps, hx, hy]
        have hne : ∀ x y : List Tok, x ≠ [.sy eps] → y ≠ [.sy eps] → x ++ y ≠ [.sy eps] := by
          intro x y hx hy e
          cases x with
          | nil => exact hy e
          | cons t x =>
            simp only [List.cons_append, List.cons.injEq, List.append_eq_nil_iff] at e
            exact hx (by rw [e.1, e.2.1])
        rw [key a b ha hb, key b c hb hc, key _ c (hne a b ha hb) hc, key a _ ha (hne b c hb hc),
          List.append_assoc]

/-- Concatenation of two lists of symbol lists. -/
def conc (X Y : List (List Tok)) : List (List Tok) := X.flatMap (fun a => Y.map (addSymLists a))

theorem catLoop_eq (item : List (List Tok)) : ∀ (n : Nat) (pre acc : List (List Tok)), n = pre.length →
    catLoop item n (pre ++ acc) = acc ++ conc pre item
  | 0, pre, acc, h => by
    have : pre = [] := List.length_eq_zero_iff.1 h.symm
    subst this
    simp [catLoop, conc]
  | n + 1, [], acc, h => by simp at h
  | n + 1, l :: pre, acc, h => by
    simp only [List.length_cons, Nat.add_right_cancel_iff] at h
    simp only [List.cons_append, catLoop, List.append_assoc]
    rw [catLoop_eq item n pre _ h]
    simp [conc]

theorem catLoop_conc (item acc : List (List Tok)) : catLoop item acc.length acc = conc acc item := by
  have := catLoop_eq item acc.length acc [] rfl
  simpa using this

theorem conc_eps_left (X : List (List Tok)) : conc [[.sy eps]] X = X := by
  simp only [conc, List.flatMap_cons, List.flatMap_nil, List.append_nil]
  have : (addSymLists [Tok.sy eps]) = id := by funext l; exact addSymLists_eps_left l
  rw [this, List.map_id]

theorem conc_eps_right (X : List (List Tok)) : conc X [[.sy eps]] = X := by
  induction X with
  | nil => rfl
  | cons a X ih =>
    simp only [conc, List.flatMap_cons, List.map_cons, List.map_nil] at ih ⊢
    rw [ih, addSymLists_eps_right]
    rfl

theorem conc_append (X Y Z : List (List Tok)) : conc (X ++ Y) Z = conc X Z ++ conc Y Z := by
  simp [conc]

theorem conc_assoc (X Y Z : List (List Tok)) : conc (conc X Y) Z = conc X (conc Y Z) := by
  induction X with
  | nil => rfl
  | cons a X ih =>
    have e : conc (a :: X) Y = Y.map (addSymLists a) ++ conc X Y := rfl
    have e' : conc (a :: X) (conc Y Z) = (conc Y Z).map (addSymLists a) ++ conc X (conc Y Z) := rfl
    rw [e, e', conc_append, ih]
    congr 1
    simp only [conc, List.map_flatMap, List.flatMap_map, List.map_map]
    congr 1
    funext b
    congr 1
    funext c
    simp only [Function.comp]
    exact addSymLists_assoc a b c

theorem catSymbols_acc (items : List Ex) : ∀ acc, catSymbols acc items =
    conc acc (catSymbols [[.sy eps]] items) := by
  induction items with
  | nil => intro acc; simp [catSymbols, conc_eps_right]
  | cons x xs ih =>
    intro acc
    simp only [catSymbols, catLoop_conc]
    rw [ih, ih (conc _ _), conc_eps_left, conc_assoc]

theorem symbols_cat_nil : symbols (.cat []) = [[.sy eps]] := by simp [symbols, catSymbols]

theorem symbols_cat_cons (x : Ex) (xs : List Ex) :
    symbols (.cat (x :: xs)) = conc (symbols x) (symbols (.cat xs)) := by
  simp only [symbols, catSymbols, catLoop_conc, conc_eps_left]
  rw [catSymbols_acc]

theorem symbols_cat_append (xs ys : List Ex) :
    symbols (.cat (xs ++ ys)) = conc (symbols (.cat xs)) (symbols (.cat ys)) := by
  induction xs with
  | nil => simp [symbols_cat_nil, conc_eps_left]
  | cons x xs ih => rw [List.cons_append, symbols_cat_cons, ih, symbols_cat_cons, conc_assoc]

theorem symbols_cat_single (x : Ex) : symbols (.cat [x]) = symbols x := by
  rw [symbols_cat_cons, symbols_cat_nil, conc_eps_right]

theorem orSymbols_eq (xs : List Ex) : orSymbols xs = xs.flatMap symbols := by
  induction xs with
  | nil => rfl
  | cons x xs ih => simp [orSymbols, ih]

theorem symbols_or {xs : List Ex} (h : xs ≠ []) : symbols (.or xs) = xs.flatMap symbols := by
  cases xs with
  | nil => exact absurd rfl h
  | cons x xs => simp [symbols, orSymbols_eq]

theorem mem_symbols_or {xs : List Ex} {z : List Tok} :
    memL z (symbols (.or xs)) = true ↔ ∃ x ∈ xs, memL z (symbols x) = true := by
  cases xs with
  | nil =>
    simp only [memL_iff, symbols, List.mem_singleton, List.not_mem_nil, false_and, exists_false,
      iff_false, not_and, Classical.not_not]
    rintro rfl
    simp
  | cons x xs =>
    rw [symbols_or (by simp)]
    simp only [memL_iff, List.mem_flatMap]
    constructor
    · rintro ⟨⟨y, hy, h⟩, hf⟩
      exact ⟨y, hy, h, hf⟩
    · rintro ⟨y, hy, h, hf⟩
      exact ⟨⟨y, hy, h⟩, hf⟩

/-! ## Acceptance -/

theorem accepts_any_left {x y : Ex} (h : isAny x = true) : accepts x y = true := by
  simp [accepts, h]

theorem accepts_any_right {x y : Ex} (h : isAny y = true) : accepts x y = true := by
  simp [accepts, h]

/-- Acceptance without `any`. -/
theorem accepts_iff {x y : Ex} (hx : isAny x = false) (hy : isAny y = false) :
    accepts x y = true ↔ symbols x ≠ [] ∧ (symbols y).length ≤ (symbols x).length ∧
      ∀ l ∈ symbols y, memL l (symbols x) = true := by
  simp only [accepts, hx, hy, Bool.or_self, Bool.false_eq_true, if_false, Bool.false_and, Bool.or_false]
  have e : (symbols x).length = 0 ↔ symbols x = [] := List.length_eq_zero_iff
  by_cases h1 : symbols x = []
  · simp [h1]
  · by_cases h2 : (symbols x).length < (symbols y).length
    · have : ¬ (symbols y).length ≤ (symbols x).length := by omega
      simp [h2, this]
    · have h3 : (symbols y).length ≤ (symbols x).length := by omega
      simp [h1, h2, h3, List.all_eq_true]

theorem isAny_or_nil : isAny (.or []) = false := rfl

/-- Nothing but `any` accepts the empty alternation. -/
theorem accepts_empty_or {x : Ex} (h : isAny x = false) : accepts x (.or []) = false := by
  rw [Bool.eq_false_iff]
  intro ha
  obtain ⟨_, _, hl⟩ := (accepts_iff h isAny_or_nil).1 ha
  have := hl [.fresh] (by simp [symbols])
  rw [memL_iff] at this
  simp at this

/-- The empty alternation accepts only what has no symbol list. -/
theorem empty_or_accepts {x : Ex} (h : isAny x = false) :
    accepts (.or []) x = true ↔ symbols x = [] := by
  rw [accepts_iff isAny_or_nil h]
  constructor
  · rintro ⟨_, _, hl⟩
    cases hs : symbols x with
    | nil => rfl
    | cons l ls =>
      have := hl l (by simp [hs])
      rw [memL_iff] at this
      simp only [symbols, List.mem_singleton] at this
      rw [this.1] at this
      simp at this
  · intro e
    simp [e, symbols]

mutual
theorem stateCount_any : ∀ (x : Ex), isAny x = true → stateCount x = 0
  | .sym _, h => by simp [isAny] at h
  | .any, _ => by simp [stateCount]
  | .plain, h => by simp [isAny] at h
  | .cat [], h => by simp [isAny] at h
  | .cat [x], h => by
    simp only [isAny] at h
    simp [stateCount, stateCounts, stateCount_any x h]
  | .cat (_ :: _ :: _), h => by simp [isAny] at h
  | .or [], h => by simp [isAny] at h
  | .or [x], h => by
    simp only [isAny] at h
    simp [stateCount, stateCounts, stateCount_any x h]
  | .or (_ :: _ :: _), h => by simp [isAny] at h
end

/-! ## Normal form -/

/-- What a `Cat` may hold. -/
def CatItem (x : Ex) : Prop :=
  isAny x = true ∨ match x with
    | .sym n => isControl n = false
    | .or l => l.length ≠ 1
    | .plain => True
    | _ => False

/-- What an `Or` without `any` may hold. -/
def OrItem (x : Ex) : Prop :=
  isAny x = false ∧ match x with
    | .sym n => isControl n = false
    | .cat l => l.length ≠ 1
    | .plain => True
    | _ => False

/-- No item accepts the items before it together, and they do not accept it. -/
def Chain (l : List Ex) : Prop :=
  ∀ p x r, l = p ++ x :: r → accepts (.or p) x = false ∧ accepts x (.or p) = false

mutual
/-- Normal form: nested sequences and nested alternations are flattened, items are no control
symbols, a sequence (alternation) has no alternation (sequence) with exactly one item, and an
alternation is either one `any` or has no item accepted by or accepting the ones before it. -/
def Normal : Ex → Prop
  | .sym _ => True
  | .any => True
  | .plain => True
  | .cat l => NormalL l ∧ ∀ x ∈ l, CatItem x
  | .or l => NormalL l ∧ ((∃ x, l = [x] ∧ isAny x = true) ∨ ((∀ x ∈ l, OrItem x) ∧ Chain l))
def NormalL : List Ex → Prop
  | [] => True
  | x :: xs => Normal x ∧ NormalL xs
end

theorem normalL_iff {l : List Ex} : NormalL l ↔ ∀ x ∈ l, Normal x := by
  induction l with
  | nil => simp [NormalL]
  | cons x xs ih => simp [NormalL, ih]

theorem hasAny_iff {l : List Ex} : hasAny l = true ↔ Ex.any ∈ l := by
  induction l with
  | nil => simp [hasAny]
  | cons x xs ih => cases x <;> simp [hasAny, ih]

theorem hasAny_false {l : List Ex} (h : ∀ x ∈ l, OrItem x) : hasAny l = false := by
  rw [Bool.eq_false_iff]
  intro ha
  have := (h _ (hasAny_iff.1 ha)).1
  simp [isAny] at this

theorem orStep_append {s : List Ex} {x : Ex} (k : List Ex → List Ex)
    (h1 : accepts (.or s) x = false) (h2 : accepts x (.or s) = false) : orStep s x k = k s := by
  simp [orStep, h1, h2]

mutual
theorem addCats_normal : ∀ (l s : List Ex), NormalL l → (∀ x ∈ l, CatItem x) → addCats s l = s ++ l
  | [], s, _, _ => by simp [addCats]
  | x :: xs, s, hn, hc => by
    simp only [addCats]
    rw [addCat_item x s hn.1 (hc x (by simp)), addCats_normal xs _ hn.2 (fun y hy => hc y (by simp [hy]))]
    simp
theorem addCat_item : ∀ (x : Ex) (s : List Ex), Normal x → CatItem x → addCat s x = s ++ [x]
  | .sym n, s, _, hc => by
    have : isControl n = false := by
      rcases hc with h | h
      · simp [isAny] at h
      · exact h
    simp [addCat, this]
  | .any, s, _, _ => by simp [addCat]
  | .plain, s, _, _ => by simp [addCat]
  | .cat l, s, _, hc => by
    have : isAny (.cat l) = true := by
      rcases hc with h | h
      · exact h
      · exact absurd h id
    simp [addCat, this]
  | .or [], s, _, _ => by simp [addCat]
  | .or [x], s, _, hc => by
    have : isAny (.or [x]) = true := by
      rcases hc with h | h
      · exact h
      · exact absurd rfl h
    have : isAny x = true := by simpa [isAny] using this
    simp [addCat, this]
  | .or (x :: y :: xs), s, hn, _ => by
    simp only [addCat]
    simp only [Normal] at hn
    obtain ⟨hl, h | h⟩ := hn
    · obtain ⟨z, hz, _⟩ := h
      simp at hz
    · have := addOrs_normal (x :: y :: xs) [] hl h.1 (by simp) (by simpa using h.2)
      rw [this]
      simp
theorem addOrs_normal : ∀ (l s : List Ex), NormalL l → (∀ x ∈ l, OrItem x) → (∀ x ∈ s, OrItem x) →
    Chain (s ++ l) → addOrs s l = s ++ l
  | [], s, _, _, _, _ => by simp [addOrs]
  | x :: xs, s, hn, hi, hs, hc => by
    have hx := hi x (by simp)
    simp only [addOrs, hasAny_false hs, hx.1, Bool.false_eq_true, if_false]
    have hch := hc s x xs rfl
    rw [addOr_item x s hn.1 hx hch.1 hch.2,
      addOrs_normal xs _ hn.2 (fun y hy => hi y (by simp [hy])) ?_ (by simpa using hc)]
    · simp
    · intro y hy
      rcases List.mem_append.1 hy with hy | hy
      · exact hs y hy
      · rw [List.mem_singleton.1 hy]; exact hx
theorem addOr_item : ∀ (x : Ex) (s : List Ex), Normal x → OrItem x →
    accepts (.or s) x = false → accepts x (.or s) = false → addOr s x = s ++ [x]
  | .sym n, s, _, hi, h1, h2 => by
    have hc : isControl n = false := hi.2
    simp only [addOr]
    rw [orStep_append _ h1 h2]
    simp [hc]
  | .any, s, _, hi, _, _ => by simp [OrItem, isAny] at hi
  | .plain, s, _, _, h1, h2 => by
    simp only [addOr]
    rw [orStep_append _ h1 h2]
  | .or l, s, _, hi, _, _ => absurd hi.2 id
  | .cat [], s, _, _, h1, h2 => by
    simp only [addOr]
    rw [orStep_append _ h1 h2]
  | .cat [x], s, _, hi, _, _ => absurd rfl hi.2
  | .cat (x :: y :: xs), s, hn, _, h1, h2 => by
    simp only [addOr]
    rw [orStep_append _ h1 h2]
    simp only [Normal] at hn
    rw [addCats_normal (x :: y :: xs) [] hn.1 hn.2]
    simp
end

/-- Copying an expression in normal form gives the same expression. -/
theorem copy_cat {l : List Ex} (h : Normal (.cat l)) : addCats [] l = l := by
  simp only [Normal] at h
  simpa using addCats_normal l [] h.1 h.2

theorem copy_or {l : List Ex} (h : Normal (.or l)) : addOrs [] l = l := by
  simp only [Normal] at h
  obtain ⟨hl, ⟨x, rfl, hx⟩ | h⟩ := h
  · simp [addOrs, hasAny, hx]
  · simpa using addOrs_normal l [] hl h.1 (by simp) (by simpa using h.2)

/-! ### `add` keeps the normal form -/

theorem normalL_append {a b : List Ex} : NormalL (a ++ b) ↔ NormalL a ∧ NormalL b := by
  simp only [normalL_iff, List.mem_append]
  constructor
  · intro h; exact ⟨fun x hx => h x (.inl hx), fun x hx => h x (.inr hx)⟩
  · rintro ⟨h1, h2⟩ x (hx | hx)
    · exact h1 x hx
    · exact h2 x hx

/-- Items of a `Cat` in normal form. -/
def CatOk (l : List Ex) : Prop := NormalL l ∧ ∀ x ∈ l, CatItem x

/-- Items of an `Or` in normal form, without `any`. -/
def OrOk (l : List Ex) : Prop := NormalL l ∧ (∀ x ∈ l, OrItem x) ∧ Chain l

theorem catOk_append {s : List Ex} {x : Ex} (h : CatOk s) (hx : Normal x) (hc : CatItem x) :
    CatOk (s ++ [x]) := by
  refine ⟨normalL_append.2 ⟨h.1, hx, trivial⟩, ?_⟩
  intro y hy
  rcases List.mem_append.1 hy with hy | hy
  · exact h.2 y hy
  · rw [List.mem_singleton.1 hy]; exact hc

theorem addCat_ok : ∀ (x : Ex) (s : List Ex), Normal x → CatOk s → CatOk (addCat s x)
  | .sym n, s, hn, h => by
    simp only [addCat]
    split
    · exact h
    · rename_i hc
      exact catOk_append h hn (.inr (by simpa using hc))
  | .any, s, hn, h => by
    simp only [addCat]
    exact catOk_append h hn (.inl rfl)
  | .plain, s, hn, h => by
    simp only [addCat]
    exact catOk_append h hn (.inr trivial)
  | .cat l, s, hn, h => by
    simp only [addCat]
    split
    · rename_i ha
      exact catOk_append h hn (.inl ha)
    · simp only [Normal] at hn
      rw [addCats_normal l s hn.1 hn.2]
      refine ⟨normalL_append.2 ⟨h.1, hn.1⟩, ?_⟩
      intro y hy
      rcases List.mem_append.1 hy with hy | hy
      · exact h.2 y hy
      · exact hn.2 y hy
  | .or [], s, hn, h => by
    simp only [addCat]
    exact catOk_append h hn (.inr (by simp))
  | .or [x], s, hn, h => by
    simp only [addCat]
    split
    · rename_i ha
      exact catOk_append h hn (.inl (by simpa [isAny] using ha))
    · simp only [Normal, NormalL] at hn
      exact addCat_ok x s hn.1.1 h
  | .or (x :: y :: xs), s, hn, h => by
    simp only [addCat]
    rw [copy_or hn]
    exact catOk_append h hn (.inr (by simp))

theorem addCats_ok : ∀ (l s : List Ex), NormalL l → CatOk s → CatOk (addCats s l)
  | [], s, _, h => by simpa [addCats] using h
  | x :: xs, s, hn, h => by
    simp only [addCats]
    exact addCats_ok xs _ hn.2 (addCat_ok x s hn.1 h)

theorem chain_append {s : List Ex} {x : Ex} (h : Chain s) (h1 : accepts (.or s) x = false)
    (h2 : accepts x (.or s) = false) : Chain (s ++ [x]) := by
  intro p y r e
  rcases List.eq_nil_or_concat r with rfl | ⟨r', z, rfl⟩
  · have := List.append_inj' e (by simp)
    simp only [List.cons.injEq, and_true] at this
    rw [← this.1, ← this.2]
    exact ⟨h1, h2⟩
  · rw [List.concat_eq_append] at e
    have e' : s ++ [x] = (p ++ y :: r') ++ [z] := by simpa using e
    have := List.append_inj' e' (by simp)
    exact h p y r' this.1

theorem orOk_nil : OrOk [] := by
  refine ⟨trivial, by simp, ?_⟩
  intro p x r e
  simp at e

theorem orOk_append {s : List Ex} {x : Ex} (h : OrOk s) (hx : Normal x) (hc : OrItem x)
    (h1 : accepts (.or s) x = false) (h2 : accepts x (.or s) = false) : OrOk (s ++ [x]) := by
  refine ⟨normalL_append.2 ⟨h.1, hx, trivial⟩, ?_, chain_append h.2.2 h1 h2⟩
  intro y hy
  rcases List.mem_append.1 hy with hy | hy
  · exact h.2.1 y hy
  · rw [List.mem_singleton.1 hy]; exact hc

theorem isAny_or_ok {s : List Ex} (h : OrOk s) : isAny (.or s) = false := by
  match s, h with
  | [], _ => rfl
  | [x], h => simpa [isAny] using (h.2.1 x (by simp)).1
  | _ :: _ :: _, _ => rfl

/-- What `orStep` can do, for an item that is not `any`. -/
theorem orStep_ok {s : List Ex} {x : Ex} (hx : isAny x = false) (h : OrOk s) (k : List Ex → List Ex)
    (hk : ∀ s, OrOk s → accepts (.or s) x = false → accepts x (.or s) = false → OrOk (k s)) :
    OrOk (orStep s x k) := by
  have hu : OrOk (if accepts (.or []) x then [] else k []) := by
    split
    · exact orOk_nil
    · rename_i h1
      exact hk [] orOk_nil (by simpa using h1) (accepts_empty_or hx)
  simp only [orStep]
  split
  · split
    · exact hu
    · exact h
  · split
    · exact hu
    · rename_i h1 h2
      exact hk s h (by simpa using h1) (by simpa using h2)

theorem isAny_cat_of {x : Ex} : isAny (.cat [x]) = isAny x := rfl

theorem addOrs_nonany {s : List Ex} (h : OrOk s) {x : Ex} (hx : isAny x = false) (xs : List Ex) :
    addOrs s (x :: xs) = addOrs (addOr s x) xs := by
  simp [addOrs, hasAny_false h.2.1, hx]

mutual
theorem addOr_ok : ∀ (x : Ex) (s : List Ex), Normal x → isAny x = false → OrOk s → OrOk (addOr s x)
  | .sym n, s, hn, ha, h => by
    simp only [addOr]
    refine orStep_ok ha h _ ?_
    intro t ht h1 h2
    split
    · exact ht
    · rename_i hc
      exact orOk_append ht hn ⟨ha, by simpa using hc⟩ h1 h2
  | .any, s, _, ha, _ => by simp [isAny] at ha
  | .plain, s, hn, ha, h => by
    simp only [addOr]
    refine orStep_ok ha h _ ?_
    intro t ht h1 h2
    exact orOk_append ht hn ⟨ha, trivial⟩ h1 h2
  | .or l, s, hn, ha, h => by
    simp only [addOr]
    refine orStep_ok ha h _ ?_
    intro t ht _ _
    simp only [Normal] at hn
    obtain ⟨hl, ⟨x, rfl, hx⟩ | hi⟩ := hn
    · simp [isAny, hx] at ha
    · exact addOrs_ok l t hl (fun y hy => (hi.1 y hy).1) ht
  | .cat [], s, hn, ha, h => by
    simp only [addOr]
    refine orStep_ok ha h _ ?_
    intro t ht h1 h2
    exact orOk_append ht hn ⟨ha, by simp⟩ h1 h2
  | .cat [x], s, hn, ha, h => by
    simp only [addOr]
    refine orStep_ok ha h _ ?_
    intro t ht _ _
    simp only [Normal, NormalL] at hn
    rw [hasAny_false ht.2.1]
    simp only [Bool.false_eq_true, if_false]
    exact addOr_ok x t hn.1.1 (by simpa [isAny] using ha) ht
  | .cat (x :: y :: xs), s, hn, ha, h => by
    simp only [addOr]
    refine orStep_ok ha h _ ?_
    intro t ht h1 h2
    rw [copy_cat hn]
    exact orOk_append ht hn ⟨ha, by simp⟩ h1 h2
theorem addOrs_ok : ∀ (l s : List Ex), NormalL l → (∀ x ∈ l, isAny x = false) → OrOk s →
    OrOk (addOrs s l)
  | [], s, _, _, h => by simpa [addOrs] using h
  | x :: xs, s, hn, ha, h => by
    rw [addOrs_nonany h (ha x (by simp))]
    exact addOrs_ok xs _ hn.2 (fun y hy => ha y (by simp [hy]))
      (addOr_ok x s hn.1 (ha x (by simp)) h)
end

/-- Items of an `Or`: one `any`, or none. -/
def OrOk' (l : List Ex) : Prop := (∃ x, l = [x] ∧ isAny x = true ∧ Normal x) ∨ OrOk l

/-- After one `any` nothing else is added, unless it is an `any` that is not the constant. -/
theorem addOr_after_any {y : Ex} (hy : isAny y = true) :
    ∀ (x : Ex), isAny x = false → addOr [y] x = [y] := by
  have h1 : ∀ x, accepts (.or [y]) x = true := fun x => accepts_any_left (by simpa [isAny] using hy)
  have h2 : stateCount (.or [y]) = 0 := by simp [stateCount, stateCounts, stateCount_any y hy]
  have h3 : ∀ x k, orStep [y] x k = [y] := by
    intro x k
    simp [orStep, h1, h2]
  intro x hx
  match x with
  | .sym _ => simp [addOr, h3]
  | .any => simp [isAny] at hx
  | .plain => simp [addOr, h3]
  | .or _ => simp [addOr, h3]
  | .cat [] => simp [addOr, h3]
  | .cat [_] => simp [addOr, h3]
  | .cat (_ :: _ :: _) => simp [addOr, h3]

theorem addOrs_ok' : ∀ (l s : List Ex), NormalL l → OrOk' s → OrOk' (addOrs s l)
  | [], s, _, h => by simpa [addOrs] using h
  | x :: xs, s, hn, h => by
    simp only [addOrs]
    split
    · exact h
    · split
      · rename_i ha
        exact .inl ⟨x, rfl, ha, hn.1⟩
      · rename_i ha
        have ha : isAny x = false := by simpa using ha
        apply addOrs_ok' xs _ hn.2
        rcases h with ⟨y, rfl, hy, hny⟩ | h
        · rw [addOr_after_any hy x ha]
          exact .inl ⟨y, rfl, hy, hny⟩
        · exact .inr (addOr_ok x s hn.1 ha h)

theorem normal_of_orOk' {l : List Ex} (h : OrOk' l) : Normal (.or l) := by
  simp only [Normal]
  rcases h with ⟨x, rfl, hx, hn⟩ | h
  · exact ⟨⟨hn, trivial⟩, .inl ⟨x, rfl, hx⟩⟩
  · exact ⟨h.1, .inr h.2⟩

theorem orOk'_of_normal {l : List Ex} (h : Normal (.or l)) : OrOk' l := by
  simp only [Normal] at h
  obtain ⟨hl, ⟨x, rfl, hx⟩ | h⟩ := h
  · exact .inl ⟨x, rfl, hx, hl.1⟩
  · exact .inr ⟨hl, h⟩

/-! ## Languages -/

/-- What an item contributes to a `Cat`: a control symbol is skipped. -/
def contrib : Ex → List (List Tok)
  | .sym n => if isControl n then [[.sy eps]] else [[.sy n]]
  | x => symbols x

theorem addCat_symbols : ∀ (x : Ex) (s : List Ex), Normal x →
    symbols (.cat (addCat s x)) = conc (symbols (.cat s)) (contrib x)
  | .sym n, s, _ => by
    simp only [addCat, contrib]
    split
    · rw [conc_eps_right]
    · rw [symbols_cat_append, symbols_cat_single]
      simp [symbols]
  | .any, s, _ => by
    simp only [addCat, contrib]
    rw [symbols_cat_append, symbols_cat_single]
  | .plain, s, _ => by
    simp only [addCat, contrib]
    rw [symbols_cat_append, symbols_cat_single]
  | .cat l, s, hn => by
    simp only [addCat, contrib]
    split
    · rw [symbols_cat_append, symbols_cat_single]
    · simp only [Normal] at hn
      rw [addCats_normal l s hn.1 hn.2, symbols_cat_append]
  | .or [], s, _ => by
    simp only [addCat, contrib]
    rw [symbols_cat_append, symbols_cat_single]
  | .or [x], s, hn => by
    simp only [addCat]
    split
    · simp only [contrib]
      rw [symbols_cat_append, symbols_cat_single]
    · rename_i ha
      simp only [Normal, NormalL] at hn
      rw [addCat_symbols x s hn.1.1]
      have e : contrib (.or [x]) = contrib x := by
        have hs : symbols (.or [x]) = symbols x := by simp [symbols, orSymbols]
        rcases hn.2 with ⟨y, hy, hya⟩ | ⟨hi, _⟩
        · simp only [List.cons.injEq, and_true] at hy
          rw [hy] at ha
          exact absurd hya ha
        · have hix := (hi x (by simp)).2
          cases x with
          | sym n =>
            have hc : isControl n = false := hix
            simp only [contrib, hs, hc]
            simp [symbols]
          | _ => simp only [contrib, hs]
      rw [e]
  | .or (x :: y :: xs), s, hn => by
    simp only [addCat, contrib]
    rw [copy_or hn, symbols_cat_append, symbols_cat_single]

theorem addCats_symbols : ∀ (l s : List Ex), NormalL l →
    symbols (.cat (addCats s l)) = (l.map contrib).foldl conc (symbols (.cat s))
  | [], s, _ => by simp [addCats]
  | x :: xs, s, hn => by
    simp only [addCats, List.map_cons, List.foldl_cons]
    rw [addCats_symbols xs _ hn.2, addCat_symbols x s hn.1]

/-- `z` is one of the symbol lists. -/
def Lang (x : Ex) (z : List Tok) : Prop := memL z (symbols x) = true

theorem lang_or {l : List Ex} {z : List Tok} : Lang (.or l) z ↔ ∃ x ∈ l, Lang x z := mem_symbols_or

theorem orStep_lang {s : List Ex} {x : Ex} (hx : isAny x = false) (h : OrOk s) (k : List Ex → List Ex)
    (z : List Tok)
    (hk : ∀ s, OrOk s → accepts (.or s) x = false → accepts x (.or s) = false →
      (Lang (.or (k s)) z ↔ Lang (.or s) z ∨ Lang x z)) :
    Lang (.or (orStep s x k)) z ↔ Lang (.or s) z ∨ Lang x z := by
  have hs := isAny_or_ok h
  have hu : Lang (.or (if accepts (.or []) x then [] else k [])) z ↔ Lang x z := by
    split
    · rename_i h1
      have := (empty_or_accepts hx).1 h1
      simp [Lang, this, memL, symbols, eqL_iff]
      rintro rfl
      simp
    · rename_i h1
      rw [hk [] orOk_nil (by simpa using h1) (accepts_empty_or hx)]
      simp [lang_or]
  have hsub : ∀ {a b : Ex}, isAny a = false → isAny b = false → accepts a b = true →
      Lang b z → Lang a z := by
    intro a b ha hb hab hl
    exact ((accepts_iff ha hb).1 hab).2.2 z (memL_iff.1 hl).1
  simp only [orStep]
  split
  · rename_i h1
    split
    · rename_i h2
      simp only [Bool.and_eq_true] at h2
      rw [hu]
      constructor
      · exact .inr
      · rintro (h3 | h3)
        · exact hsub hx hs h2.1 h3
        · exact h3
    · constructor
      · exact .inl
      · rintro (h3 | h3)
        · exact h3
        · exact hsub hs hx h1 h3
  · split
    · rename_i h2
      rw [hu]
      constructor
      · exact .inr
      · rintro (h3 | h3)
        · exact hsub hx hs h2 h3
        · exact h3
    · rename_i h1 h2
      exact hk s h (by simpa using h1) (by simpa using h2)

theorem lang_append {s : List Ex} {x : Ex} {z : List Tok} :
    Lang (.or (s ++ [x])) z ↔ Lang (.or s) z ∨ Lang x z := by
  simp only [lang_or, List.mem_append, List.mem_singleton]
  constructor
  · rintro ⟨y, hy | rfl, h⟩
    · exact .inl ⟨y, hy, h⟩
    · exact .inr h
  · rintro (⟨y, hy, h⟩ | h)
    · exact ⟨y, .inl hy, h⟩
    · exact ⟨x, .inr rfl, h⟩

/-- Not a control symbol. -/
def NotControl : Ex → Prop
  | .sym n => isControl n = false
  | _ => True

mutual
theorem addOr_lang : ∀ (x : Ex) (s : List Ex) (z : List Tok), Normal x → isAny x = false →
    NotControl x → OrOk s → (Lang (.or (addOr s x)) z ↔ Lang (.or s) z ∨ Lang x z)
  | .sym n, s, z, hn, ha, hc, h => by
    simp only [addOr]
    refine orStep_lang ha h _ z ?_
    intro t _ _ _
    have hc : isControl n = false := hc
    simp only [hc, Bool.false_eq_true, if_false]
    exact lang_append
  | .any, s, z, _, ha, _, _ => by simp [isAny] at ha
  | .plain, s, z, hn, ha, _, h => by
    simp only [addOr]
    refine orStep_lang ha h _ z ?_
    intro t _ _ _
    exact lang_append
  | .or l, s, z, hn, ha, _, h => by
    simp only [addOr]
    refine orStep_lang ha h _ z ?_
    intro t ht _ _
    simp only [Normal] at hn
    obtain ⟨hl, ⟨x, rfl, hx⟩ | hi⟩ := hn
    · simp [isAny, hx] at ha
    · rw [addOrs_lang l t z hl (fun y hy => (hi.1 y hy).1) ?_ ht, lang_or (l := l)]
      intro y hy
      have := (hi.1 y hy).2
      cases y <;> simp_all [NotControl]
  | .cat [], s, z, hn, ha, _, h => by
    simp only [addOr]
    refine orStep_lang ha h _ z ?_
    intro t _ _ _
    exact lang_append
  | .cat [x], s, z, hn, ha, _, h => by
    simp only [addOr]
    refine orStep_lang ha h _ z ?_
    intro t ht _ _
    simp only [Normal, NormalL] at hn
    rw [hasAny_false ht.2.1]
    simp only [Bool.false_eq_true, if_false]
    have hax : isAny x = false := by simpa [isAny] using ha
    have hcx := hn.2 x (by simp)
    rw [addOr_lang x t z hn.1.1 hax ?_ ht]
    · simp only [Lang, symbols_cat_single]
    · rcases hcx with h1 | h1
      · rw [hax] at h1; cases h1
      · cases x <;> simp_all [NotControl]
  | .cat (x :: y :: xs), s, z, hn, ha, _, h => by
    simp only [addOr]
    refine orStep_lang ha h _ z ?_
    intro t _ _ _
    rw [copy_cat hn]
    exact lang_append
theorem addOrs_lang : ∀ (l s : List Ex) (z : List Tok), NormalL l → (∀ x ∈ l, isAny x = false) →
    (∀ x ∈ l, NotControl x) → OrOk s →
    (Lang (.or (addOrs s l)) z ↔ Lang (.or s) z ∨ ∃ x ∈ l, Lang x z)
  | [], s, z, _, _, _, _ => by simp [addOrs]
  | x :: xs, s, z, hn, ha, hc, h => by
    have hx := ha x (by simp)
    rw [addOrs_nonany h hx,
      addOrs_lang xs _ z hn.2 (fun y hy => ha y (by simp [hy])) (fun y hy => hc y (by simp [hy]))
        (addOr_ok x s hn.1 hx h),
      addOr_lang x s z hn.1 hx (hc x (by simp)) h]
    constructor
    · rintro ((h1 | h1) | ⟨y, hy, h1⟩)
      · exact .inl h1
      · exact .inr ⟨x, by simp, h1⟩
      · exact .inr ⟨y, by simp [hy], h1⟩
    · rintro (h1 | ⟨y, hy, h1⟩)
      · exact .inl (.inl h1)
      · rcases List.mem_cons.1 hy with rfl | hy
        · exact .inl (.inr h1)
        · exact .inr ⟨y, hy, h1⟩
end

/-! ## Containment -/

theorem searchIn_both (t : List Tok) (f : Bool) (l : List Tok) :
    searchIn t true f l.length l = true ↔ l ≠ [] ∧ l = t ∧ Tok.fresh ∉ t := by
  cases l with
  | nil => simp [searchIn]
  | cons a l =>
    simp only [List.length_cons, searchIn]
    have := @eqL_iff (a :: l) t
    constructor
    · intro h
      have h : eqL (a :: l) t = true := by
        by_cases h' : eqL (a :: l) t = true
        · exact h'
        · simp [h'] at h
      obtain ⟨h1, h2⟩ := this.1 h
      exact ⟨by simp, h1, h1 ▸ h2⟩
    · rintro ⟨_, h1, h2⟩
      simp [this.2 ⟨h1, h1 ▸ h2⟩]

theorem searchIn_prefix (t : List Tok) : ∀ (n : Nat) (l : List Tok), n = l.length →
    (searchIn t false false n l = true ↔ t ≠ [] ∧ Tok.fresh ∉ t ∧ ∃ q, l = t ++ q)
  | 0, l, h => by
    have : l = [] := List.length_eq_zero_iff.1 h.symm
    subst this
    simp only [searchIn, Bool.false_eq_true, false_iff]
    rintro ⟨h1, _, q, h2⟩
    exact h1 (List.append_eq_nil_iff.1 h2.symm).1
  | n + 1, [], h => by simp at h
  | n + 1, a :: l, h => by
    simp only [searchIn]
    by_cases he : eqL (a :: l) t = true
    · obtain ⟨h1, h2⟩ := eqL_iff.1 he
      simp only [he, if_true, true_iff]
      exact ⟨h1 ▸ by simp, h1 ▸ h2, [], by simp [h1]⟩
    · simp only [he, Bool.false_eq_true, if_false]
      rw [searchIn_prefix t n _ (by simp at h ⊢; omega)]
      constructor
      · rintro ⟨h1, h2, q, h3⟩
        refine ⟨h1, h2, q ++ [(a :: l).getLast (by simp)], ?_⟩
        rw [← List.append_assoc, ← h3, List.dropLast_concat_getLast]
      · rintro ⟨h1, h2, q, h3⟩
        refine ⟨h1, h2, q.dropLast, ?_⟩
        have hq : q ≠ [] := by
          intro e
          subst e
          rw [List.append_nil] at h3
          exact he (eqL_iff.2 ⟨h3, h3 ▸ h2⟩)
        rw [h3, List.dropLast_append_of_ne_nil hq]

theorem searchIn_suffix (t : List Tok) : ∀ (n : Nat) (l : List Tok), n = l.length →
    (searchIn t false true n l = true ↔ t ≠ [] ∧ Tok.fresh ∉ t ∧ ∃ p, l = p ++ t)
  | 0, l, h => by
    have : l = [] := List.length_eq_zero_iff.1 h.symm
    subst this
    simp only [searchIn, Bool.false_eq_true, false_iff]
    rintro ⟨h1, _, q, h2⟩
    exact h1 (List.append_eq_nil_iff.1 h2.symm).2
  | n + 1, [], h => by simp at h
  | n + 1, a :: l, h => by
    simp only [searchIn]
    by_cases he : eqL (a :: l) t = true
    · obtain ⟨h1, h2⟩ := eqL_iff.1 he
      simp only [he, if_true, true_iff]
      exact ⟨h1 ▸ by simp, h1 ▸ h2, [], by simp [h1]⟩
    · simp only [he, Bool.false_eq_true, if_false, if_true, List.drop_one, List.tail_cons]
      rw [searchIn_suffix t n _ (by simp at h ⊢; omega)]
      constructor
      · rintro ⟨h1, h2, p, h3⟩
        exact ⟨h1, h2, a :: p, by simp [h3]⟩
      · rintro ⟨h1, h2, p, h3⟩
        refine ⟨h1, h2, ?_⟩
        cases p with
        | nil => exact absurd (eqL_iff.2 ⟨by simpa using h3, by rw [h3]; simpa using h2⟩) he
        | cons b p =>
          simp only [List.cons_append, List.cons.injEq] at h3
          exact ⟨p, h3.2⟩

/-- What one symbol list must look like. -/
theorem searchList_iff (t : List Tok) (head tail : Bool) : ∀ (n : Nat) (l : List Tok), n = l.length →
    (searchList t head tail n l = true ↔ t ≠ [] ∧ Tok.fresh ∉ t ∧
      ∃ p q, l = p ++ t ++ q ∧ (head = true → p = []) ∧ (tail = true → q = []))
  | 0, l, h => by
    have : l = [] := List.length_eq_zero_iff.1 h.symm
    subst this
    simp only [searchList, Bool.false_eq_true, false_iff]
    rintro ⟨h1, _, p, q, h2, _⟩
    have := (List.append_eq_nil_iff.1 h2.symm).1
    exact h1 (List.append_eq_nil_iff.1 this).2
  | n + 1, [], h => by simp at h
  | n + 1, a :: l, h => by
    simp only [searchList]
    cases head <;> cases tail
    · simp only [Bool.and_self, Bool.or_self, Bool.false_eq_true, if_false, false_implies, and_true]
      by_cases hs : searchIn t false false (a :: l).length (a :: l) = true
      · simp only [hs, if_true, true_iff]
        obtain ⟨h1, h2, q, h3⟩ := (searchIn_prefix t _ _ rfl).1 hs
        exact ⟨h1, h2, [], q, by simpa using h3⟩
      · simp only [hs, Bool.false_eq_true, if_false, List.drop_one, List.tail_cons]
        rw [searchList_iff t false false n l (by simpa using h)]
        simp only [Bool.false_eq_true, false_implies, and_true]
        constructor
        · rintro ⟨h1, h2, p, q, h3⟩
          exact ⟨h1, h2, a :: p, q, by simp [h3]⟩
        · rintro ⟨h1, h2, p, q, h3⟩
          refine ⟨h1, h2, ?_⟩
          cases p with
          | nil =>
            exact absurd ((searchIn_prefix t _ _ rfl).2 ⟨h1, h2, q, by simpa using h3⟩) hs
          | cons b p =>
            simp only [List.cons_append, List.cons.injEq] at h3
            exact ⟨p, q, h3.2⟩
    · have := searchIn_suffix t _ (a :: l) rfl
      simp only [Bool.false_and, Bool.or_true, if_true, Bool.false_eq_true, false_implies, true_implies,
        true_and]
      constructor
      · intro hs
        have hs : searchIn t false true (a :: l).length (a :: l) = true := by
          by_cases h' : searchIn t false true (a :: l).length (a :: l) = true
          · exact h'
          · simpa using hs
        obtain ⟨h1, h2, p, h3⟩ := this.1 hs
        exact ⟨h1, h2, p, [], by simpa using h3, rfl⟩
      · rintro ⟨h1, h2, p, q, h3, rfl⟩
        rw [this.2 ⟨h1, h2, p, by simpa using h3⟩]
        rfl
    · have := searchIn_prefix t _ (a :: l) rfl
      simp only [Bool.and_false, Bool.or_false, if_true, Bool.false_eq_true, false_implies, true_implies,
        and_true]
      constructor
      · intro hs
        have hs : searchIn t false false (a :: l).length (a :: l) = true := by
          by_cases h' : searchIn t false false (a :: l).length (a :: l) = true
          · exact h'
          · simpa using hs
        obtain ⟨h1, h2, q, h3⟩ := this.1 hs
        exact ⟨h1, h2, [], q, by simpa using h3, rfl⟩
      · rintro ⟨h1, h2, p, q, h3, rfl⟩
        rw [this.2 ⟨h1, h2, q, by simpa using h3⟩]
        rfl
    · have := searchIn_both t true (a :: l)
      simp only [Bool.and_self, Bool.or_self, if_true, true_implies]
      constructor
      · intro hs
        have hs : searchIn t true true (a :: l).length (a :: l) = true := by
          by_cases h' : searchIn t true true (a :: l).length (a :: l) = true
          · exact h'
          · simpa using hs
        obtain ⟨h1, h2, h3⟩ := this.1 hs
        exact ⟨h2 ▸ h1, h3, [], [], by simpa using h2, rfl, rfl⟩
      · rintro ⟨h1, h2, p, q, h3, rfl, rfl⟩
        rw [this.2 ⟨by simp, by simpa using h3, h2⟩]
        rfl

end Nisaba.Expr
