import Verif.Lemmas.Abjad
/-! Unique decodability of the reversible romanization. -/
set_option maxRecDepth 100000
namespace Nisaba.Abjad
open Nisaba

/-- What is left of `b` after removing the prefix `a`. -/
def strip : Str → Str → Option Str
  | [], b => some b
  | _ :: _, [] => none
  | x :: a, y :: b => bif Nat.beq x y then strip a b else none

theorem strip_iff {a b e : Str} : strip a b = some e ↔ b = a ++ e := by
  induction a generalizing b with
  | nil => simp [strip, eq_comm]
  | cons x a ih =>
    cases b with
    | nil => simp [strip]
    | cons y b =>
      simp only [strip, Bool.cond_eq_ite, Nat.beq_eq]
      by_cases h : x = y
      · subst h; simp [ih]
      · simp only [h, if_false]
        constructor
        · simp
        · intro h'; simp at h'; exact absurd h'.1.symm h

def memStr (D : List Str) (e : Str) : Bool := D.any (strEq e)

theorem memStr_iff {D : List Str} {e : Str} : memStr D e = true ↔ e ∈ D := by
  simp only [memStr, List.any_eq_true, strEq_iff]
  constructor
  · rintro ⟨x, hx, rfl⟩; exact hx
  · intro h; exact ⟨e, h, rfl⟩

/-- The rest of `b` after `a`, if any, is in `D`. -/
def restIn (D : List Str) (a b : Str) : Bool :=
  match strip a b with
  | some e => memStr D e
  | none => true

/-- `D` contains all rests of different codewords and is closed under taking rests. -/
def dangling (C D : List Str) : Bool :=
  (D.all fun d => !d.isEmpty && C.all fun w => restIn D d w && restIn D w d) &&
  (C.all fun v => C.all fun w => strEq v w || restIn D v w) && (C.all fun w => !w.isEmpty)

theorem restIn_mem {D : List Str} {a b e : Str} (h : restIn D a b = true) (he : b = a ++ e) :
    e ∈ D := by
  unfold restIn at h
  rw [strip_iff.2 he] at h
  exact memStr_iff.1 h

theorem append_cases {a b c d : Str} (h : a ++ b = c ++ d) :
    (∃ e, c = a ++ e ∧ b = e ++ d) ∨ (∃ e, a = c ++ e ∧ d = e ++ b) := by
  rcases List.append_eq_append_iff.1 h with ⟨e, h1, h2⟩ | ⟨e, h1, h2⟩
  · exact Or.inl ⟨e, h1, h2⟩
  · exact Or.inr ⟨e, h1, h2⟩

theorem no_dangling {C D : List Str} (h : dangling C D = true) (n : Nat) :
    ∀ (d : Str) (xs ys : List Str), d ∈ D → (∀ x ∈ xs, x ∈ C) → (∀ y ∈ ys, y ∈ C) →
      xs.length + ys.length = n → d ++ xs.flatten ≠ ys.flatten := by
  simp only [dangling, Bool.and_eq_true, List.all_eq_true] at h
  obtain ⟨⟨h1, _⟩, _⟩ := h
  induction n using Nat.strongRecOn with
  | _ n ih =>
    intro d xs ys hd hx hy hn he
    obtain ⟨hne, hcl⟩ := h1 d hd
    cases ys with
    | nil =>
      have : d = [] := by simp at he; exact he.1
      simp [this] at hne
    | cons w ys =>
      have hw := hy w (by simp)
      have hy' : ∀ y ∈ ys, y ∈ C := fun y h => hy y (List.mem_cons_of_mem _ h)
      rw [List.flatten_cons] at he
      obtain ⟨k1, k2⟩ := hcl w hw
      rcases append_cases he with ⟨e, he1, he2⟩ | ⟨e, he1, he2⟩
      · exact ih (ys.length + xs.length) (by simp at hn; omega) e ys xs (restIn_mem k1 he1) hy' hx rfl he2.symm
      · exact ih (xs.length + ys.length) (by simp at hn; omega) e xs ys (restIn_mem k2 he1) hx hy' rfl he2.symm

/-- A code with a closed set of dangling rests is uniquely decodable. -/
theorem unique_parse {C D : List Str} (h : dangling C D = true) :
    ∀ (xs ys : List Str), (∀ x ∈ xs, x ∈ C) → (∀ y ∈ ys, y ∈ C) → xs.flatten = ys.flatten →
      xs = ys := by
  have h' := h
  simp only [dangling, Bool.and_eq_true, List.all_eq_true, Bool.or_eq_true] at h'
  obtain ⟨⟨_, h2⟩, h3⟩ := h'
  intro xs
  induction xs with
  | nil =>
    intro ys _ hy he
    cases ys with
    | nil => rfl
    | cons w ys =>
      have : w = [] := by
        rw [List.flatten_cons] at he
        exact (List.append_eq_nil_iff.1 he.symm).1
      have hw := h3 w (hy w (by simp))
      simp [this] at hw
  | cons v xs ih =>
    intro ys hx hy he
    have hv := hx v (by simp)
    have hx' : ∀ x ∈ xs, x ∈ C := fun x h => hx x (List.mem_cons_of_mem _ h)
    cases ys with
    | nil =>
      have : v = [] := by
        rw [List.flatten_cons] at he
        exact (List.append_eq_nil_iff.1 he).1
      have hw := h3 v hv
      simp [this] at hw
    | cons w ys =>
      have hw := hy w (by simp)
      have hy' : ∀ y ∈ ys, y ∈ C := fun y h => hy y (List.mem_cons_of_mem _ h)
      by_cases hvw : v = w
      · subst hvw
        rw [List.flatten_cons, List.flatten_cons] at he
        rw [ih ys hx' hy' (List.append_cancel_left he)]
      · exfalso
        rw [List.flatten_cons, List.flatten_cons] at he
        have hn : ∀ {a b : Str}, a ≠ b → strEq a b ≠ true := fun hab h => hab (strEq_iff.1 h)
        rcases append_cases he with ⟨e, he1, he2⟩ | ⟨e, he1, he2⟩
        · exact no_dangling h _ e ys xs
            (restIn_mem ((h2 v hv w hw).resolve_left (hn hvw)) he1) hy' hx' rfl he2.symm
        · exact no_dangling h _ e xs ys
            (restIn_mem ((h2 w hw v hv).resolve_left (hn (Ne.symm hvw))) he1) hx' hy' rfl he2.symm

/-! ## The romanization table -/

def romanWords : List Str := Data.arabReversibleRoman.map fun p => p.2

/-- The rests that codewords leave when they are laid over each other. -/
def romanRests : List Str := [
  [nat_lit 804], [nat_lit 863, nat_lit 104], [nat_lit 803, nat_lit 776], [nat_lit 805], [nat_lit 863, nat_lit 115],
  [nat_lit 776], [nat_lit 775], [nat_lit 803], [nat_lit 772], [nat_lit 817],
  [nat_lit 695], [nat_lit 774], [nat_lit 794], [nat_lit 778], [nat_lit 863, nat_lit 103],
  [nat_lit 878], [nat_lit 863, nat_lit 105], [nat_lit 863, nat_lit 39], [nat_lit 863, nat_lit 110], [nat_lit 849],
  [nat_lit 863, nat_lit 257], [nat_lit 770], [nat_lit 855], [nat_lit 825], [nat_lit 8305]]

theorem roman_dangling : dangling romanWords romanRests = true := by decide +kernel

theorem roman_lhs : noConflict Data.arabReversibleRoman = true := by decide +kernel

/-- Different rows have different romanizations. -/
theorem roman_rhs : (Data.arabReversibleRoman.all fun p => Data.arabReversibleRoman.all fun q =>
    bif strEq p.2 q.2 then strEq p.1 q.1 else true) = true := by decide +kernel

theorem roman_single : (Data.arabReversibleRoman.all fun p => Nat.beq p.1.length 1) = true := by
  decide +kernel

theorem roman_inj {p q : Rule} (hp : p ∈ Data.arabReversibleRoman)
    (hq : q ∈ Data.arabReversibleRoman) (h : p.2 = q.2) : p = q := by
  have := List.all_eq_true.1 (List.all_eq_true.1 roman_rhs p hp) q hq
  rw [strEq_iff.2 h, cond_true, strEq_iff] at this
  exact Prod.ext this h

theorem roman_fun {p q : Rule} (hp : p ∈ Data.arabReversibleRoman)
    (hq : q ∈ Data.arabReversibleRoman) (h : p.1 = q.1) : p = q := by
  have h' := roman_lhs
  simp only [noConflict, List.all_eq_true, Bool.and_eq_true] at h'
  have := (h' p hp).2 q hq
  rw [strEq_iff.2 h, cond_true, strEq_iff] at this
  exact Prod.ext h this

/-- A pair of the starred table is a list of rows. -/
theorem star_rows {a : List Rule} {x y : Str} :
    Star (Rel.stringMap a) x y ↔ ∃ ps : List Rule, (∀ p ∈ ps, p ∈ a) ∧
      x = (ps.map fun p => p.1).flatten ∧ y = (ps.map fun p => p.2).flatten := by
  constructor
  · intro h
    induction h with
    | nil => exact ⟨[], by simp, rfl, rfl⟩
    | @cons x₁ x₂ y₁ y₂ h k ih =>
      obtain ⟨ps, h1, h2, h3⟩ := ih
      refine ⟨(x₁, y₁) :: ps, ?_, by simp [h2], by simp [h3]⟩
      intro p hp
      rcases List.mem_cons.1 hp with rfl | hp
      · exact h
      · exact h1 p hp
  · rintro ⟨ps, h1, rfl, rfl⟩
    induction ps with
    | nil => exact .nil
    | cons p ps ih =>
      exact .cons (h1 p (by simp)) (ih fun q hq => h1 q (List.mem_cons_of_mem _ hq))

theorem map_inj_of {a : List Rule} {f : Rule → Str} (hf : ∀ p ∈ a, ∀ q ∈ a, f p = f q → p = q) :
    ∀ (ps qs : List Rule), (∀ p ∈ ps, p ∈ a) → (∀ q ∈ qs, q ∈ a) → ps.map f = qs.map f → ps = qs := by
  intro ps
  induction ps with
  | nil => intro qs _ _ h; cases qs <;> simp_all
  | cons p ps ih =>
    intro qs hp hq h
    cases qs with
    | nil => simp at h
    | cons q qs =>
      simp only [List.map_cons, List.cons.injEq] at h
      rw [hf p (hp p (by simp)) q (hq q (by simp)) h.1,
        ih qs (fun x hx => hp x (List.mem_cons_of_mem _ hx)) (fun x hx => hq x (List.mem_cons_of_mem _ hx)) h.2]

theorem roman_unique {x x' y : Str} (h : romanFst x y) (h' : romanFst x' y) : x = x' := by
  obtain ⟨ps, hp, rfl, rfl⟩ := star_rows.1 h
  obtain ⟨qs, hq, rfl, e⟩ := star_rows.1 h'
  have mem : ∀ {l : List Rule}, (∀ p ∈ l, p ∈ Data.arabReversibleRoman) →
      ∀ w ∈ l.map (fun p => p.2), w ∈ romanWords := by
    intro l hl w hw
    obtain ⟨p, hp, rfl⟩ := List.mem_map.1 hw
    exact List.mem_map.2 ⟨p, hl p hp, rfl⟩
  have := unique_parse roman_dangling _ _ (mem hp) (mem hq) e
  rw [map_inj_of (fun p hp q hq h => roman_inj hp hq h) ps qs hp hq this]

theorem flatten_single_inj : ∀ (as bs : List Str), (∀ a ∈ as, a.length = 1) →
    (∀ b ∈ bs, b.length = 1) → as.flatten = bs.flatten → as = bs := by
  intro as
  induction as with
  | nil =>
    intro bs _ hb h
    cases bs with
    | nil => rfl
    | cons b bs =>
      have := hb b (by simp)
      have h2 : b = [] := (List.append_eq_nil_iff.1 (by simpa using h.symm : b ++ bs.flatten = [])).1
      simp [h2] at this
  | cons a as ih =>
    intro bs ha hb h
    have ha1 := ha a (by simp)
    cases bs with
    | nil =>
      have h2 : a = [] := (List.append_eq_nil_iff.1 (by simpa using h : a ++ as.flatten = [])).1
      simp [h2] at ha1
    | cons b bs =>
      have hb1 := hb b (by simp)
      rw [List.flatten_cons, List.flatten_cons] at h
      obtain ⟨h1, h2⟩ := List.append_inj h (by omega)
      rw [h1, ih bs (fun x hx => ha x (List.mem_cons_of_mem _ hx)) (fun x hx => hb x (List.mem_cons_of_mem _ hx)) h2]

theorem roman_functional {x y y' : Str} (h : romanFst x y) (h' : romanFst x y') : y = y' := by
  obtain ⟨ps, hp, rfl, rfl⟩ := star_rows.1 h
  obtain ⟨qs, hq, e, rfl⟩ := star_rows.1 h'
  have len : ∀ {l : List Rule}, (∀ p ∈ l, p ∈ Data.arabReversibleRoman) →
      ∀ w ∈ l.map (fun p => p.1), w.length = 1 := by
    intro l hl w hw
    obtain ⟨p, hp, rfl⟩ := List.mem_map.1 hw
    exact Nat.eq_of_beq_eq_true (List.all_eq_true.1 roman_single p (hl p hp))
  have := flatten_single_inj _ _ (len hp) (len hq) e
  rw [map_inj_of (fun p hp q hq h => roman_fun hp hq h) ps qs hp hq this]

theorem roman_total {x : Str} (h : ∀ c ∈ x, ∃ r, ([c], r) ∈ Data.arabReversibleRoman) :
    ∃ y, romanFst x y := by
  induction x with
  | nil => exact ⟨[], .nil⟩
  | cons c x ih =>
    obtain ⟨r, hr⟩ := h c (by simp)
    obtain ⟨y, hy⟩ := ih fun d hd => h d (List.mem_cons_of_mem _ hd)
    exact ⟨r ++ y, .cons (x₁ := [c]) hr hy⟩

end Nisaba.Abjad
