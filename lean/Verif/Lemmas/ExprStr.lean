import Verif.Model.ExprStr
import Verif.Lemmas.Expression
/-!
# Lemmas: printed forms can be read back in one way only
-/
namespace Nisaba.ExprStr

open Nisaba.Expr Nisaba.AlignRule

/-- A text that can stand in a printed form: not empty, no space, parenthesis, ratio sign or bracket of a context, and
not the bar alone. -/
def Ok (s : Str) : Prop :=
  s ≠ [] ∧ s ≠ [124] ∧ ∀ c ∈ s, c ≠ 32 ∧ c ≠ 40 ∧ c ≠ 41 ∧ c ≠ 0x2236 ∧ c ≠ 0x2308 ∧ c ≠ 0x230B ∧ c ≠ 44

/-- Texts of symbols and plain expressions that are clear. -/
structure Clear (T : Texts) : Prop where
  sym : ∀ n, Ok (T.sym n)
  plain : Ok T.plain
  inj : ∀ n m, T.sym n = T.sym m → n = m
  sym_plain : ∀ n, T.sym n ≠ T.plain
  sym_any : ∀ n, T.sym n ≠ anyText
  plain_any : T.plain ≠ anyText

/-- What may follow a printed form. -/
def Delim (r : Str) : Prop :=
  r = [] ∨ ∃ c t, r = c :: t ∧ (c = 32 ∨ c = 41 ∨ c = 0x2236 ∨ c = 0x230B ∨ c = 44)

theorem Delim.cons {c : Nat} {t : Str} (h : c = 32 ∨ c = 41 ∨ c = 0x2236 ∨ c = 0x230B ∨ c = 44) :
    Delim (c :: t) := .inr ⟨c, t, rfl, h⟩

theorem anyText_ok : Ok anyText := by unfold Ok anyText; decide

theorem Ok.head {s : Str} (h : Ok s) : ∃ c t, s = c :: t ∧ c ≠ 32 ∧ c ≠ 40 ∧ c ≠ 41 ∧ c ≠ 0x2236 ∧
    c ≠ 0x2308 ∧ c ≠ 0x230B ∧ c ≠ 44 := by
  obtain ⟨h1, _, h3⟩ := h
  cases s with
  | nil => exact absurd rfl h1
  | cons c t => exact ⟨c, t, rfl, h3 c (by simp)⟩

/-- Words end at delimiters. -/
theorem word {a b r s : Str} (ha : ∀ c ∈ a, c ≠ 32 ∧ c ≠ 40 ∧ c ≠ 41 ∧ c ≠ 0x2236 ∧ c ≠ 0x2308 ∧ c ≠ 0x230B ∧ c ≠ 44)
    (hb : ∀ c ∈ b, c ≠ 32 ∧ c ≠ 40 ∧ c ≠ 41 ∧ c ≠ 0x2236 ∧ c ≠ 0x2308 ∧ c ≠ 0x230B ∧ c ≠ 44)
    (hr : Delim r) (hs : Delim s) (h : a ++ r = b ++ s) : a = b ∧ r = s := by
  induction a generalizing b with
  | nil =>
    cases b with
    | nil => exact ⟨rfl, h⟩
    | cons c b =>
      rcases hr with rfl | ⟨d, t, rfl, hd⟩
      · simp at h
      · have := hb c (by simp)
        simp only [List.nil_append, List.cons_append, List.cons.injEq] at h
        omega
  | cons c a ih =>
    cases b with
    | nil =>
      rcases hs with rfl | ⟨d, t, rfl, hd⟩
      · simp at h
      · have := ha c (by simp)
        simp only [List.nil_append, List.cons_append, List.cons.injEq] at h
        omega
    | cons d b =>
      simp only [List.cons_append, List.cons.injEq] at h
      obtain ⟨h1, h2⟩ := ih (fun c hc => ha c (by simp [hc])) (fun c hc => hb c (by simp [hc])) h.2
      exact ⟨by rw [h.1, h1], h2⟩

/-- The text of an expression that is printed without parentheses. -/
def leafText (T : Texts) : Ex → Option Str
  | .sym n => some (T.sym n)
  | .any => some anyText
  | .plain => some T.plain
  | .cat [] => some (T.sym eps)
  | .or [] => some (T.sym nor)
  | _ => none

theorem leafText_str {T : Texts} {x : Ex} {t : Str} (h : leafText T x = some t) : str T x = t := by
  cases x with
  | sym n => simpa [leafText, str] using h
  | any => simpa [leafText, str] using h
  | plain => simpa [leafText, str] using h
  | cat l => cases l <;> simp_all [leafText, str]
  | or l => cases l <;> simp_all [leafText, str]

theorem leafText_ok {T : Texts} (hT : Clear T) {x : Ex} {t : Str} (h : leafText T x = some t) : Ok t := by
  cases x with
  | sym n => simp only [leafText, Option.some.injEq] at h; exact h ▸ hT.sym n
  | any => simp only [leafText, Option.some.injEq] at h; exact h ▸ anyText_ok
  | plain => simp only [leafText, Option.some.injEq] at h; exact h ▸ hT.plain
  | cat l =>
    cases l with
    | nil => simp only [leafText, Option.some.injEq] at h; exact h ▸ hT.sym _
    | cons => simp [leafText] at h
  | or l =>
    cases l with
    | nil => simp only [leafText, Option.some.injEq] at h; exact h ▸ hT.sym _
    | cons => simp [leafText] at h

/-- The tail of a form in parentheses after its first item. -/
theorem str_compound {T : Texts} {x : Ex} (h : leafText T x = none) :
    (∃ y ys, x = .cat (y :: ys) ∧ str T x = 40 :: (str T y ++ (strRest T [32] ys ++ [41]))) ∨
    (∃ y, x = .or [y] ∧ str T x = 40 :: (str T y ++ (strRest T [32, 124, 32] [.or []] ++ [41]))) ∨
    (∃ y z zs, x = .or (y :: z :: zs) ∧
      str T x = 40 :: (str T y ++ (strRest T [32, 124, 32] (z :: zs) ++ [41]))) := by
  cases x with
  | sym n => simp [leafText] at h
  | any => simp [leafText] at h
  | plain => simp [leafText] at h
  | cat l =>
    cases l with
    | nil => simp [leafText] at h
    | cons y ys => exact .inl ⟨y, ys, rfl, by simp [str]⟩
  | or l =>
    match l, h with
    | [], h => simp [leafText] at h
    | [y], _ => exact .inr (.inl ⟨y, rfl, by simp [str, strRest]⟩)
    | y :: z :: zs, _ => exact .inr (.inr ⟨y, z, zs, rfl, by simp [str, strRest]⟩)

theorem str_head {T : Texts} (hT : Clear T) (x : Ex) : ∃ c t, str T x = c :: t ∧
    (leafText T x = none → c = 40) ∧ (leafText T x ≠ none → c ≠ 40) ∧ c ≠ 32 ∧ c ≠ 41 ∧ c ≠ 0x2308 ∧ c ≠ 0x2236 ∧ c ≠ 0x230B := by
  cases h : leafText T x with
  | none =>
    rcases str_compound h with ⟨y, ys, _, e⟩ | ⟨y, _, e⟩ | ⟨y, z, zs, _, e⟩ <;>
      exact ⟨40, _, e, fun _ => rfl, by simp, by decide, by decide, by decide, by decide, by decide⟩
  | some t =>
    obtain ⟨c, u, e, hc⟩ := (leafText_ok hT h).head
    refine ⟨c, u, by rw [leafText_str h, e], by simp, fun _ => hc.2.1, hc.1, hc.2.2.1, hc.2.2.2.2.1, hc.2.2.2.1, hc.2.2.2.2.2.1⟩

/-- What may be printed inside: in normal form and not the symbols `eps` and `nor`. -/
def Inner (x : Ex) : Prop := Normal x ∧ ∀ n, x = .sym n → n ≠ eps ∧ n ≠ nor

theorem not_control {n : Nat} (h : isControl n = false) : n ≠ eps ∧ n ≠ nor := by
  simp only [isControl, decide_eq_false_iff_not] at h
  simp only [eps, nor]
  omega

theorem leaf_inj {T : Texts} (hT : Clear T) {x y : Ex} {t : Str} (hx : Inner x) (hy : Inner y)
    (h1 : leafText T x = some t) (h2 : leafText T y = some t) : x = y := by
  have key : ∀ {x : Ex} {t : Str}, Inner x → leafText T x = some t →
      (∃ n, x = .sym n ∧ (n ≠ eps ∧ n ≠ nor) ∧ t = T.sym n) ∨ (x = .any ∧ t = anyText) ∨ (x = .plain ∧ t = T.plain) ∨
      (x = .cat [] ∧ t = T.sym eps) ∨ (x = .or [] ∧ t = T.sym nor) := by
    intro x t hx h
    cases x with
    | sym n => simp only [leafText, Option.some.injEq] at h; exact .inl ⟨n, rfl, hx.2 n rfl, h.symm⟩
    | any => simp only [leafText, Option.some.injEq] at h; simp [h]
    | plain => simp only [leafText, Option.some.injEq] at h; simp [h]
    | cat l => cases l with
      | nil => simp only [leafText, Option.some.injEq] at h; simp [h]
      | cons => simp [leafText] at h
    | or l => cases l with
      | nil => simp only [leafText, Option.some.injEq] at h; simp [h]
      | cons => simp [leafText] at h
  have en : eps ≠ nor := by decide
  rcases key hx h1 with ⟨n, rfl, hn, e⟩ | ⟨rfl, e⟩ | ⟨rfl, e⟩ | ⟨rfl, e⟩ | ⟨rfl, e⟩ <;>
  rcases key hy h2 with ⟨m, rfl, hm, e'⟩ | ⟨rfl, e'⟩ | ⟨rfl, e'⟩ | ⟨rfl, e'⟩ | ⟨rfl, e'⟩ <;>
  first
  | rfl
  | exact absurd (hT.inj _ _ (e.symm.trans e')) en
  | exact absurd (hT.inj _ _ (e'.symm.trans e)) en
  | (have := hT.inj _ _ (e.symm.trans e'); subst this; first | rfl | simp_all)
  | exact absurd (e.symm.trans e') (hT.sym_any _)
  | exact absurd (e'.symm.trans e) (hT.sym_any _)
  | exact absurd (e.symm.trans e') (hT.sym_plain _)
  | exact absurd (e'.symm.trans e) (hT.sym_plain _)
  | exact absurd (e.symm.trans e') hT.plain_any
  | exact absurd (e'.symm.trans e) hT.plain_any

/-- Expressions whose printed form can be read back in one way only. -/
def Inj (T : Texts) (x : Ex) : Prop := ∀ y r s, Inner y → Delim r → Delim s →
  str T x ++ r = str T y ++ s → x = y ∧ r = s

theorem inj_leaf {T : Texts} (hT : Clear T) {x : Ex} (hx : Inner x) (h : leafText T x ≠ none) : Inj T x := by
  intro y r s hy hr hs e
  obtain ⟨t, ht⟩ := Option.ne_none_iff_exists'.1 h
  obtain ⟨c, u, e1, _, h2, _⟩ := str_head hT x
  obtain ⟨d, v, e2, h3, _⟩ := str_head hT y
  cases hl : leafText T y with
  | none =>
    rw [e1, e2] at e
    simp only [List.cons_append, List.cons.injEq] at e
    exact absurd (e.1.trans (h3 hl)) (h2 h)
  | some t' =>
    rw [leafText_str ht, leafText_str hl] at e
    obtain ⟨rfl, e'⟩ := word (leafText_ok hT ht).2.2 (leafText_ok hT hl).2.2 hr hs e
    exact ⟨leaf_inj hT hx hy ht hl, e'⟩

/-- The two separators. -/
def Sep (sep : Str) : Prop := sep = [32] ∨ sep = [32, 124, 32]

theorem delim_rest (T : Texts) {sep : Str} (h : Sep sep) (xs : List Ex) (r : Str) :
    Delim (strRest T sep xs ++ 41 :: r) := by
  cases xs with
  | nil => exact .cons (by simp)
  | cons x xs => rcases h with rfl | rfl <;> simp only [strRest, List.cons_append, List.append_assoc] <;>
      exact .cons (by simp)

theorem rest_inj {T : Texts} {sep : Str} (hsep : Sep sep) : ∀ (xs ys : List Ex) (r s : Str),
    (∀ x ∈ xs, Inj T x) → (∀ y ∈ ys, Inner y) → strRest T sep xs ++ 41 :: r = strRest T sep ys ++ 41 :: s →
    xs = ys ∧ r = s
  | [], [], r, s, _, _, e => ⟨rfl, by simpa [strRest] using e⟩
  | [], y :: ys, r, s, _, _, e => by rcases hsep with rfl | rfl <;> simp [strRest] at e
  | x :: xs, [], r, s, _, _, e => by rcases hsep with rfl | rfl <;> simp [strRest] at e
  | x :: xs, y :: ys, r, s, hx, hy, e => by
    simp only [strRest, List.append_assoc, List.append_cancel_left_eq] at e
    obtain ⟨rfl, e1⟩ := hx x (by simp) y _ _ (hy y (by simp)) (delim_rest T hsep xs r) (delim_rest T hsep ys s) e
    obtain ⟨rfl, e2⟩ := rest_inj hsep xs ys r s (fun x h => hx x (by simp [h])) (fun y h => hy y (by simp [h])) e1
    exact ⟨rfl, e2⟩

/-- The separators cannot be mistaken for each other. -/
theorem rest_ne {T : Texts} (hT : Clear T) (xs : List Ex) (z : Ex) (zs : List Ex) (r s : Str) :
    strRest T [32] xs ++ 41 :: r ≠ strRest T [32, 124, 32] (z :: zs) ++ 41 :: s := by
  cases xs with
  | nil => simp [strRest]
  | cons x xs =>
    simp only [strRest, List.append_assoc, List.cons_append, List.nil_append]
    intro e
    simp only [List.cons.injEq, true_and] at e
    cases hl : leafText T x with
    | none =>
      obtain ⟨c, u, e1, h1, _⟩ := str_head hT x
      rw [e1, h1 hl] at e
      simp at e
    | some t =>
      have ht := leafText_ok hT hl
      rw [leafText_str hl] at e
      have := word (b := [124]) (s := 32 :: _) ht.2.2 (by simp) (delim_rest T (.inl rfl) xs r) (.cons (by simp)) e
      exact ht.2.1 this.1

theorem inner_cat {l : List Ex} (h : Inner (.cat l)) : ∀ x ∈ l, Inner x := by
  intro x hx
  have h1 := h.1
  simp only [Normal] at h1
  refine ⟨normalL_iff.1 h1.1 x hx, ?_⟩
  rintro n rfl
  exact not_control (by simpa [CatItem, isAny] using h1.2 _ hx)

theorem inner_or {l : List Ex} (h : Inner (.or l)) : (∀ x ∈ l, Inner x) ∧ Ex.or [] ∉ l := by
  have h1 := h.1
  simp only [Normal] at h1
  rcases h1.2 with ⟨y, rfl, hy⟩ | ⟨h2, _⟩
  · constructor
    · intro x hx
      simp only [List.mem_singleton] at hx
      subst hx
      refine ⟨normalL_iff.1 h1.1 x (by simp), ?_⟩
      rintro n rfl
      simp [isAny] at hy
    · simp only [List.mem_singleton]
      rintro rfl
      simp [isAny] at hy
  · constructor
    · intro x hx
      refine ⟨normalL_iff.1 h1.1 x hx, ?_⟩
      rintro n rfl
      exact not_control (by simpa [OrItem, isAny] using h2 _ hx)
    · intro hx
      simpa [OrItem] using h2 _ hx

theorem inner_or_nil : Inner (.or []) := by
  refine ⟨by simp [Normal, NormalL, Chain], by simp⟩

theorem sizeOf_mem {x : Ex} {l : List Ex} (h : x ∈ l) : sizeOf x < sizeOf l := List.sizeOf_lt_of_mem h

/-- A form in parentheses ends at its own parenthesis. -/
theorem compound_inj {T : Texts} (hT : Clear T) {x y : Ex} (hx : Inner x) (hy : Inner y)
    (hl : leafText T x = none) (ih : ∀ z, sizeOf z < sizeOf x → Inner z → Inj T z) (r s : Str)
    (e : str T x ++ r = str T y ++ s) : x = y ∧ r = s := by
  have hly : leafText T y = none := by
    refine Classical.byContradiction fun hn => ?_
    obtain ⟨c, u, e1, h1, _⟩ := str_head hT x
    obtain ⟨d, v, e2, _, h4, _⟩ := str_head hT y
    rw [e1, e2] at e
    simp only [List.cons_append, List.cons.injEq] at e
    exact h4 hn (e.1.symm.trans (h1 hl))
  have go : ∀ (a b : Ex) (as bs : List Ex) (sa sb : Str), Sep sa → Sep sb → sizeOf a < sizeOf x → Inner a → Inner b →
      str T x = 40 :: (str T a ++ (strRest T sa as ++ [41])) → str T y = 40 :: (str T b ++ (strRest T sb bs ++ [41])) →
      a = b ∧ strRest T sa as ++ 41 :: r = strRest T sb bs ++ 41 :: s := by
    intro a b as bs sa sb h1 h2 hs ha hb e1 e2
    rw [e1, e2] at e
    simp only [List.cons_append, List.append_assoc, List.cons.injEq, true_and, List.nil_append] at e
    exact ih a hs ha b _ _ hb (delim_rest T h1 as r) (delim_rest T h2 bs s) e
  have hnor : Inj T (.or []) := inj_leaf hT inner_or_nil (by simp [leafText])
  rcases str_compound hl with ⟨a, as, rfl, e1⟩ | ⟨a, rfl, e1⟩ | ⟨a, a', as, rfl, e1⟩ <;>
  rcases str_compound hly with ⟨b, bs, rfl, e2⟩ | ⟨b, rfl, e2⟩ | ⟨b, b', bs, rfl, e2⟩
  · have h1 := inner_cat hx; have h2 := inner_cat hy
    obtain ⟨rfl, e3⟩ := go a b as bs _ _ (.inl rfl) (.inl rfl) (by simp; omega) (h1 a (by simp)) (h2 b (by simp)) e1 e2
    obtain ⟨rfl, e4⟩ := rest_inj (.inl rfl) as bs r s
      (fun z hz => ih z (by have := sizeOf_mem hz; simp; omega) (h1 z (by simp [hz]))) (fun z hz => h2 z (by simp [hz])) e3
    exact ⟨rfl, e4⟩
  · have h1 := inner_cat hx; have h2 := (inner_or hy).1
    exact absurd (go a b as _ _ _ (.inl rfl) (.inr rfl) (by simp; omega) (h1 a (by simp)) (h2 b (by simp)) e1 e2).2
      (rest_ne hT _ _ _ _ _)
  · have h1 := inner_cat hx; have h2 := (inner_or hy).1
    exact absurd (go a b as _ _ _ (.inl rfl) (.inr rfl) (by simp; omega) (h1 a (by simp)) (h2 b (by simp)) e1 e2).2
      (rest_ne hT _ _ _ _ _)
  · have h1 := (inner_or hx).1; have h2 := inner_cat hy
    exact absurd (go a b _ bs _ _ (.inr rfl) (.inl rfl) (by simp; omega) (h1 a (by simp)) (h2 b (by simp)) e1 e2).2.symm
      (rest_ne hT _ _ _ _ _)
  · have h1 := (inner_or hx).1; have h2 := (inner_or hy).1
    obtain ⟨rfl, e3⟩ := go a b _ _ _ _ (.inr rfl) (.inr rfl) (by simp; omega) (h1 a (by simp)) (h2 b (by simp)) e1 e2
    exact ⟨rfl, by simpa using e3⟩
  · have h1 := (inner_or hx).1; have h2 := (inner_or hy).1
    obtain ⟨rfl, e3⟩ := go a b _ _ _ _ (.inr rfl) (.inr rfl) (by simp; omega) (h1 a (by simp)) (h2 b (by simp)) e1 e2
    have := (rest_inj (.inr rfl) [.or []] (b' :: bs) r s (by simpa using hnor) (fun z hz => h2 z (List.mem_cons_of_mem _ hz)) e3).1
    refine absurd ?_ (inner_or hy).2
    simp only [List.cons.injEq] at this
    simp [← this.1]
  · have h1 := (inner_or hx).1; have h2 := inner_cat hy
    exact absurd (go a b _ bs _ _ (.inr rfl) (.inl rfl) (by simp; omega) (h1 a (by simp)) (h2 b (by simp)) e1 e2).2.symm
      (rest_ne hT _ _ _ _ _)
  · have h1 := (inner_or hx).1; have h2 := (inner_or hy).1
    obtain ⟨rfl, e3⟩ := go a b _ _ _ _ (.inr rfl) (.inr rfl) (by simp; omega) (h1 a (by simp)) (h2 b (by simp)) e1 e2
    have := (rest_inj (.inr rfl) [.or []] (a' :: as) s r (by simpa using hnor) (fun z hz => h1 z (List.mem_cons_of_mem _ hz)) e3.symm).1
    refine absurd ?_ (inner_or hx).2
    simp only [List.cons.injEq] at this
    simp [← this.1]
  · have h1 := (inner_or hx).1; have h2 := (inner_or hy).1
    obtain ⟨rfl, e3⟩ := go a b _ _ _ _ (.inr rfl) (.inr rfl) (by simp; omega) (h1 a (by simp)) (h2 b (by simp)) e1 e2
    obtain ⟨h3, e4⟩ := rest_inj (.inr rfl) (a' :: as) (b' :: bs) r s
      (fun z hz => ih z (by have := sizeOf_mem hz; simp only [Ex.or.sizeOf_spec, List.cons.sizeOf_spec] at this ⊢; omega) (h1 z (List.mem_cons_of_mem _ hz)))
      (fun z hz => h2 z (List.mem_cons_of_mem _ hz)) e3
    rw [h3]
    exact ⟨rfl, e4⟩

theorem inj_all {T : Texts} (hT : Clear T) : ∀ (n : Nat) (x : Ex), sizeOf x < n → Inner x → Inj T x
  | 0, _, h, _ => by omega
  | n + 1, x, h, hx => by
    cases hl : leafText T x with
    | none =>
      intro y r s hy _ _ e
      exact compound_inj hT hx hy hl (fun z hz hi => inj_all hT n z (by omega) hi) r s e
    | some t => exact inj_leaf hT hx (by simp [hl])

theorem inj {T : Texts} (hT : Clear T) {x : Ex} (hx : Inner x) : Inj T x := inj_all hT _ x (Nat.lt_succ_self _) hx

/-- A form in parentheses ends at its own parenthesis. -/
theorem inj_compound {T : Texts} (hT : Clear T) {x y : Ex} (hx : Inner x) (hy : Inner y) (hl : leafText T x = none)
    (r s : Str) (e : str T x ++ r = str T y ++ s) : x = y ∧ r = s :=
  compound_inj hT hx hy hl (fun _ _ hi => inj hT hi) r s e

/-- The marks for the beginning and the end of a sequence occur in no other text. -/
structure Marks (T : Texts) : Prop where
  bos : T.sym bos = [0x200B, 0x22B3, 0x200B]
  eos : T.sym eos = [0x200B, 0x22B2, 0x200B]
  only_bos : ∀ n, 0x22B3 ∈ T.sym n → n = ExprStr.bos
  only_eos : ∀ n, 0x22B2 ∈ T.sym n → n = ExprStr.eos
  plain : 0x22B3 ∉ T.plain ∧ 0x22B2 ∉ T.plain

theorem leaf_mark {T : Texts} (hM : Marks T) {x : Ex} {t : Str} (h : leafText T x = some t) :
    (0x22B3 ∈ t → t = T.sym bos) ∧ (0x22B2 ∈ t → t = T.sym eos) := by
  have hs : ∀ n, (0x22B3 ∈ T.sym n → T.sym n = T.sym bos) ∧ (0x22B2 ∈ T.sym n → T.sym n = T.sym eos) :=
    fun n => ⟨fun h => by rw [hM.only_bos n h], fun h => by rw [hM.only_eos n h]⟩
  cases x with
  | sym n => simp only [leafText, Option.some.injEq] at h; exact h ▸ hs n
  | any => simp only [leafText, Option.some.injEq] at h; subst h; simp [anyText]
  | plain =>
    simp only [leafText, Option.some.injEq] at h; subst h
    exact ⟨fun h => absurd h hM.plain.1, fun h => absurd h hM.plain.2⟩
  | cat l => cases l with
    | nil => simp only [leafText, Option.some.injEq] at h; exact h ▸ hs _
    | cons => simp [leafText] at h
  | or l => cases l with
    | nil => simp only [leafText, Option.some.injEq] at h; exact h ▸ hs _
    | cons => simp [leafText] at h

theorem bos_ne {T : Texts} (hT : Clear T) (hM : Marks T) (x y : Ex) (u v : Str) :
    T.sym bos ++ (str T x ++ 0x2236 :: u) ≠ str T y ++ 0x2236 :: v := by
  intro e
  obtain ⟨d, w, e2, h3, _⟩ := str_head hT y
  cases hl : leafText T y with
  | none =>
    rw [e2, h3 hl, hM.bos] at e
    simp at e
  | some t =>
    rw [leafText_str hl] at e
    have ht : 0x22B3 ∈ t := by
      rw [hM.bos] at e
      match t, leafText_ok hT hl, e with
      | [], h, _ => exact absurd rfl h.1
      | [_], _, e => simp at e
      | _ :: b :: _, _, e =>
        simp only [List.cons_append, List.nil_append, List.cons.injEq] at e
        simp [e.2.1]
    rw [(leaf_mark hM hl).1 ht, List.append_cancel_left_eq] at e
    obtain ⟨c, w, e1, _, _, _, _, _, h, _⟩ := str_head hT x
    rw [e1] at e
    simp only [List.cons_append, List.cons.injEq] at e
    exact h e.1

theorem eos_ne {T : Texts} (hT : Clear T) (hM : Marks T) {x y : Ex} (hx : Inner x) (hy : Inner y) (u v : Str) :
    str T x ++ (T.sym eos ++ 0x230B :: u) ≠ str T y ++ 0x230B :: v := by
  intro e
  cases hl : leafText T x with
  | none =>
    have := (inj_compound hT hx hy hl _ _ e).2
    rw [hM.eos] at this
    simp at this
  | some t =>
    obtain ⟨c, u', e1, _, h2, _⟩ := str_head hT x
    obtain ⟨d, v', e2, h3, _⟩ := str_head hT y
    cases hl' : leafText T y with
    | none =>
      rw [e1, e2] at e
      simp only [List.cons_append, List.cons.injEq] at e
      exact absurd (e.1.trans (h3 hl')) (h2 (by simp [hl]))
    | some t' =>
      rw [leafText_str hl, leafText_str hl', ← List.append_assoc] at e
      have hw := (word (a := t ++ T.sym eos) (by
        intro c hc
        rcases List.mem_append.1 hc with h | h
        · exact (leafText_ok hT hl).2.2 c h
        · exact (hT.sym _).2.2 c h) (leafText_ok hT hl').2.2 (.cons (by simp)) (.cons (by simp)) e).1
      have : 0x22B2 ∈ t' := by rw [← hw, hM.eos]; simp
      rw [(leaf_mark hM hl').2 this] at hw
      exact (leafText_ok hT hl).1 (by simpa using hw)

/-- A side after an optional mark. -/
theorem bos_inj {T : Texts} (hT : Clear T) (hM : Marks T) {x y : Ex} (hx : Inner x) (hy : Inner y) (b b' : Bool)
    (u v : Str) (e : (if b then T.sym bos else []) ++ (str T x ++ 0x2236 :: u) =
      (if b' then T.sym bos else []) ++ (str T y ++ 0x2236 :: v)) : b = b' ∧ x = y ∧ u = v := by
  have fin : str T x ++ 0x2236 :: u = str T y ++ 0x2236 :: v → x = y ∧ u = v := fun e => by
    obtain ⟨h1, h2⟩ := inj hT hx y _ _ hy (.cons (by simp)) (.cons (by simp)) e
    exact ⟨h1, by simpa using h2⟩
  cases b <;> cases b' <;> simp only [if_true, Bool.false_eq_true, if_false, List.nil_append] at e
  · exact ⟨rfl, fin e⟩
  · exact absurd e.symm (bos_ne hT hM y x v u)
  · exact absurd e (bos_ne hT hM x y u v)
  · exact ⟨rfl, fin (List.append_cancel_left e)⟩

/-- A side before an optional mark. -/
theorem eos_inj {T : Texts} (hT : Clear T) (hM : Marks T) {x y : Ex} (hx : Inner x) (hy : Inner y) (b b' : Bool)
    (u v : Str) (e : str T x ++ ((if b then T.sym eos else []) ++ 0x230B :: u) =
      str T y ++ ((if b' then T.sym eos else []) ++ 0x230B :: v)) : x = y ∧ b = b' ∧ u = v := by
  cases b <;> cases b' <;> simp only [if_true, Bool.false_eq_true, if_false, List.nil_append] at e
  · obtain ⟨h1, h2⟩ := inj hT hx y _ _ hy (.cons (by simp)) (.cons (by simp)) e
    exact ⟨h1, rfl, by simpa using h2⟩
  · exact absurd e.symm (eos_ne hT hM hy hx v u)
  · exact absurd e (eos_ne hT hM hx hy u v)
  · rw [← List.append_assoc, ← List.append_assoc] at e
    cases hl : leafText T x with
    | none =>
      rw [List.append_assoc, List.append_assoc] at e
      obtain ⟨h1, h2⟩ := inj_compound hT hx hy hl _ _ e
      exact ⟨h1, rfl, by simpa using h2⟩
    | some t =>
      cases hl' : leafText T y with
      | none =>
        rw [List.append_assoc, List.append_assoc] at e
        obtain ⟨h1, h2⟩ := inj_compound hT hy hx hl' _ _ e.symm
        exact ⟨h1.symm, rfl, by simpa using h2.symm⟩
      | some t' =>
        have hw : ∀ {z : Ex} {t : Str}, leafText T z = some t → ∀ c ∈ t ++ T.sym eos, c ≠ 32 ∧ c ≠ 40 ∧ c ≠ 41 ∧
            c ≠ 0x2236 ∧ c ≠ 0x2308 ∧ c ≠ 0x230B ∧ c ≠ 44 := by
          intro z t hl c hc
          rcases List.mem_append.1 hc with h | h
          · exact (leafText_ok hT hl).2.2 c h
          · exact (hT.sym _).2.2 c h
        rw [leafText_str hl, leafText_str hl'] at e
        obtain ⟨h1, h2⟩ := word (hw hl) (hw hl') (.cons (by simp)) (.cons (by simp)) e
        have h1 : t = t' := List.append_cancel_right h1
        subst h1
        exact ⟨leaf_inj hT hx hy hl hl', rfl, by simpa using h2⟩

/-- `Symbol.CTRL.eps` and the empty `Cat` are printed alike, so are `Symbol.CTRL.nor` and the empty `Or`. -/
def shape : Ex → Ex
  | .sym n => if n = eps then .cat [] else if n = nor then .or [] else .sym n
  | x => x

theorem shape_inner {x : Ex} (h : Normal x) : Inner (shape x) := by
  cases x with
  | sym n =>
    simp only [shape]
    by_cases h0 : n = eps
    · rw [if_pos h0]
      exact ⟨by simp [Normal, NormalL], by simp⟩
    · rw [if_neg h0]
      by_cases h5 : n = nor
      · rw [if_pos h5]
        exact ⟨by simp [Normal, NormalL, Chain], by simp⟩
      · rw [if_neg h5]
        exact ⟨h, by rintro m ⟨⟩; exact ⟨h0, h5⟩⟩
  | _ => exact ⟨h, by simp [shape]⟩

theorem str_shape (T : Texts) (x : Ex) : str T (shape x) = str T x := by
  cases x with
  | sym n =>
    simp only [shape]
    by_cases h0 : n = eps
    · rw [if_pos h0, h0]; simp [str]
    · rw [if_neg h0]
      by_cases h5 : n = nor
      · rw [if_pos h5, h5]; simp [str]
      · rw [if_neg h5]
  | _ => rfl

/-- A `Cat` or `Or` of one symbol is printed as this symbol. -/
def sideShape : Ex → Ex
  | .cat [.sym n] => shape (.sym n)
  | .or [.sym n] => shape (.sym n)
  | .cat [.plain] => .plain
  | .or [.plain] => .plain
  | x => shape x

/-- A side that is printed with its items: it does not have a single item that is a `Cat` or `Or`, unless it
is any. -/
def Shown : Ex → Prop
  | .cat [x] => isAny x = true ∨ (∃ n, x = .sym n) ∨ x = .plain
  | .or [x] => isAny x = true ∨ (∃ n, x = .sym n) ∨ x = .plain
  | _ => True

theorem side_eq (T : Texts) {x : Ex} (h : Shown x) : sideStr T x = str T (sideShape x) := by
  cases x with
  | sym n => simp [sideStr, isAny, items, textOf, sideShape, str_shape, str]
  | any => simp [sideStr, isAny, sideShape, shape]
  | plain => simp [sideStr, isAny, items, sideShape, shape]
  | cat l =>
    match l, h with
    | [], _ => simp [sideStr, isAny, items, sideShape, shape]
    | [x], h =>
      rcases h with h | ⟨n, rfl⟩ | rfl
      · have : sideShape (.cat [x]) = .cat [x] := by cases x <;> simp_all [sideShape, shape, isAny]
        simp [sideStr, isAny, h, this]
      · simp [sideStr, isAny, items, textOf, sideShape, str_shape, str]
      · simp [sideStr, isAny, items, textOf, sideShape, str]
    | x :: y :: l, _ => simp [sideStr, isAny, items, sideShape, shape]
  | or l =>
    match l, h with
    | [], _ => simp [sideStr, isAny, items, sideShape, shape]
    | [x], h =>
      rcases h with h | ⟨n, rfl⟩ | rfl
      · have : sideShape (.or [x]) = .or [x] := by cases x <;> simp_all [sideShape, shape, isAny]
        simp [sideStr, isAny, h, this]
      · simp [sideStr, isAny, items, textOf, sideShape, str_shape, str]
      · simp [sideStr, isAny, items, textOf, sideShape, str]
    | x :: y :: l, _ => simp [sideStr, isAny, items, sideShape, shape]

theorem side_inner {x : Ex} (h : Normal x) : Inner (sideShape x) := by
  unfold sideShape
  split
  · exact shape_inner (by simp [Normal])
  · exact shape_inner (by simp [Normal])
  · exact ⟨by simp [Normal], by simp⟩
  · exact ⟨by simp [Normal], by simp⟩
  · exact shape_inner h

end Nisaba.ExprStr
