import Verif.Model.Wellformed
/-!
# Regular expressions: partial derivatives, and first / last / follow sets
-/
namespace Nisaba

/-- Regular expressions over code points with literal strings as leaves. -/
inductive RE
  | none
  | lit (w : Str)
  | alt (a b : RE)
  | cat (a b : RE)
  | star (a : RE)
  deriving DecidableEq

namespace RE

/-- Language of a regular expression. -/
def lang : RE → Lang
  | none => Lang.empty
  | lit w => fun s => s = w
  | alt a b => Lang.union (lang a) (lang b)
  | cat a b => Lang.cat (lang a) (lang b)
  | star a => Lang.Star (lang a)

/-- Optional. -/
def ques (a : RE) : RE := alt (lit []) a

/-- Alternation of the left columns of a table. -/
def ofRows : List Rule → RE
  | [] => none
  | r :: t => alt (lit r.1) (ofRows t)

/-- Does the language contain the empty string? -/
def nullable : RE → Bool
  | none => false
  | lit w => w.isEmpty
  | alt a b => nullable a || nullable b
  | cat a b => nullable a && nullable b
  | star _ => true

/-- Partial derivatives by one character. -/
def pd (c : Nat) : RE → List RE
  | none => []
  | lit [] => []
  | lit (x :: w) => if x = c then [lit w] else []
  | alt a b => pd c a ++ pd c b
  | cat a b => (pd c a).map (fun q => cat q b) ++ (if nullable a then pd c b else [])
  | star a => (pd c a).map (fun q => cat q (star a))

/-- Partial derivatives of a set of expressions. -/
def pdSet (c : Nat) (S : List RE) : List RE := S.flatMap (pd c)

/-- Left-to-right recogniser: the state is a set of expressions. -/
def run (S : List RE) : Str → List RE
  | [] => S
  | c :: s => run (pdSet c S) s

/-- Acceptance. -/
def accepts (r : RE) (s : Str) : Bool := (run [r] s).any nullable

/-- Everything that can occur in a state of the recogniser after the first character. -/
def tails : Str → List RE
  | [] => []
  | _ :: w => lit w :: tails w

/-- Finite set of expressions closed under partial derivatives. -/
def summary : RE → List RE
  | none => []
  | lit w => tails w
  | alt a b => summary a ++ summary b
  | cat a b => (summary a).map (fun q => cat q b) ++ summary b
  | star a => (summary a).map (fun q => cat q (star a))

theorem nullable_iff (r : RE) : nullable r = true ↔ lang r [] := by
  induction r with
  | none => simp [nullable, lang, Lang.empty]
  | lit w => cases w <;> simp [nullable, lang]
  | alt a b iha ihb => simp [nullable, lang, Lang.union, iha, ihb]
  | cat a b iha ihb =>
    simp only [nullable, Bool.and_eq_true, iha, ihb, lang, Lang.cat]
    constructor
    · rintro ⟨h1, h2⟩; exact ⟨[], [], rfl, h1, h2⟩
    · rintro ⟨x, y, h, h1, h2⟩
      have := List.append_eq_nil_iff.1 h.symm
      rw [this.1] at h1; rw [this.2] at h2
      exact ⟨h1, h2⟩
  | star a _ => simp only [nullable, lang, true_iff]; exact Lang.Star.nil

theorem star_cons_iff (L : Lang) (c : Nat) (s : Str) :
    Lang.Star L (c :: s) ↔ ∃ x y, s = x ++ y ∧ L (c :: x) ∧ Lang.Star L y := by
  constructor
  · intro h
    generalize hw : c :: s = w at h
    induction h with
    | nil => cases hw
    | @cons x y hx hy ih =>
      cases x with
      | nil => exact ih hw
      | cons a x =>
        simp only [List.cons_append, List.cons.injEq] at hw
        obtain ⟨rfl, rfl⟩ := hw
        exact ⟨x, y, rfl, hx, hy⟩
  · rintro ⟨x, y, rfl, hx, hy⟩
    exact Lang.Star.cons (x := c :: x) hx hy

theorem pd_iff (c : Nat) (r : RE) (s : Str) :
    (∃ q ∈ pd c r, lang q s) ↔ lang r (c :: s) := by
  induction r generalizing s with
  | none => simp [pd, lang, Lang.empty]
  | lit w =>
    cases w with
    | nil => simp [pd, lang]
    | cons x w =>
      by_cases h : x = c
      · simp [pd, lang, h]
      · simp [pd, lang, h, Ne.symm h]
  | alt a b iha ihb =>
    simp only [pd, lang, Lang.union, List.mem_append, ← iha, ← ihb]
    constructor
    · rintro ⟨q, h | h, hq⟩
      · exact Or.inl ⟨q, h, hq⟩
      · exact Or.inr ⟨q, h, hq⟩
    · rintro (⟨q, h, hq⟩ | ⟨q, h, hq⟩)
      · exact ⟨q, Or.inl h, hq⟩
      · exact ⟨q, Or.inr h, hq⟩
  | cat a b iha ihb =>
    simp only [pd, lang, Lang.cat, List.mem_append, List.mem_map]
    constructor
    · rintro ⟨q, (⟨p, hp, rfl⟩ | h), hq⟩
      · obtain ⟨x, y, rfl, hx, hy⟩ := hq
        exact ⟨c :: x, y, rfl, (iha x).1 ⟨p, hp, hx⟩, hy⟩
      · split at h
        · next hn => exact ⟨[], c :: s, rfl, (nullable_iff a).1 hn, (ihb s).1 ⟨q, h, hq⟩⟩
        · cases h
    · rintro ⟨x, y, h, hx, hy⟩
      cases x with
      | nil =>
        simp only [List.nil_append] at h
        subst h
        obtain ⟨q, hq, hs⟩ := (ihb s).2 hy
        refine ⟨q, Or.inr ?_, hs⟩
        rw [if_pos ((nullable_iff a).2 hx)]; exact hq
      | cons d x =>
        simp only [List.cons_append, List.cons.injEq] at h
        obtain ⟨rfl, rfl⟩ := h
        obtain ⟨q, hq, hs⟩ := (iha x).2 hx
        exact ⟨cat q b, Or.inl ⟨q, hq, rfl⟩, x, y, rfl, hs, hy⟩
  | star a iha =>
    simp only [pd, lang, List.mem_map, star_cons_iff]
    constructor
    · rintro ⟨q, ⟨p, hp, rfl⟩, x, y, rfl, hx, hy⟩
      exact ⟨x, y, rfl, (iha x).1 ⟨p, hp, hx⟩, hy⟩
    · rintro ⟨x, y, rfl, hx, hy⟩
      obtain ⟨q, hq, hs⟩ := (iha x).2 hx
      exact ⟨cat q (star a), ⟨q, hq, rfl⟩, x, y, rfl, hs, hy⟩

theorem run_iff (S : List RE) (s : Str) :
    (run S s).any nullable = true ↔ ∃ q ∈ S, lang q s := by
  induction s generalizing S with
  | nil => simp [run, nullable_iff]
  | cons c s ih =>
    simp only [run, ih, pdSet, List.mem_flatMap]
    constructor
    · rintro ⟨q, ⟨p, hp, hq⟩, hs⟩
      exact ⟨p, hp, (pd_iff c p s).1 ⟨q, hq, hs⟩⟩
    · rintro ⟨p, hp, hs⟩
      obtain ⟨q, hq, h⟩ := (pd_iff c p s).2 hs
      exact ⟨q, ⟨p, hp, hq⟩, h⟩

/-- The recogniser accepts exactly the language. -/
theorem accepts_iff (r : RE) (s : Str) : accepts r s = true ↔ lang r s := by
  rw [accepts, run_iff]; simp

theorem tails_closed (w v : Str) (h : lit v ∈ lit w :: tails w) (c : Nat) :
    ∀ q ∈ pd c (lit v), q ∈ tails w := by
  induction w with
  | nil => simp [tails] at h; subst h; simp [pd]
  | cons x w ih =>
    intro q hq
    simp only [tails, List.mem_cons] at h ⊢
    rcases h with h | h | h
    · injection h with h; subst h
      simp only [pd] at hq
      split at hq <;> simp_all
    · injection h with h; subst h
      exact Or.inr (ih (by simp) q hq)
    · exact Or.inr (ih (by simp [h]) q hq)

theorem tails_lit (w : Str) : ∀ q ∈ tails w, ∃ v, q = lit v := by
  induction w with
  | nil => simp [tails]
  | cons x w ih =>
    intro q hq
    simp only [tails, List.mem_cons] at hq
    rcases hq with rfl | hq
    · exact ⟨w, rfl⟩
    · exact ih q hq

theorem summary_closed (r : RE) (c : Nat) :
    ∀ p ∈ r :: summary r, ∀ q ∈ pd c p, q ∈ summary r := by
  induction r with
  | none => simp [summary, pd]
  | lit w =>
    intro p hp q hq
    obtain ⟨v, rfl⟩ : ∃ v, p = lit v := by
      rcases List.mem_cons.1 hp with rfl | hp
      · exact ⟨w, rfl⟩
      · exact tails_lit w p hp
    exact tails_closed w v hp c q hq
  | alt a b iha ihb =>
    intro p hp q hq
    simp only [summary, List.mem_append]
    rcases List.mem_cons.1 hp with rfl | hp
    · simp only [pd, List.mem_append] at hq
      rcases hq with hq | hq
      · exact Or.inl (iha a (by simp) q hq)
      · exact Or.inr (ihb b (by simp) q hq)
    · simp only [summary, List.mem_append] at hp
      rcases hp with hp | hp
      · exact Or.inl (iha p (by simp [hp]) q hq)
      · exact Or.inr (ihb p (by simp [hp]) q hq)
  | cat a b iha ihb =>
    intro p hp q hq
    have key : ∀ p' ∈ a :: summary a, ∀ q ∈ pd c (cat p' b),
        q ∈ summary (cat a b) := by
      intro p' hp' q hq
      simp only [pd, List.mem_append, List.mem_map] at hq
      simp only [summary, List.mem_append, List.mem_map]
      rcases hq with ⟨q', hq', rfl⟩ | hq
      · exact Or.inl ⟨q', iha p' hp' q' hq', rfl⟩
      · split at hq
        · exact Or.inr (ihb b (by simp) q hq)
        · cases hq
    rcases List.mem_cons.1 hp with rfl | hp
    · exact key a (by simp) q hq
    · simp only [summary, List.mem_append, List.mem_map] at hp
      rcases hp with ⟨p', hp', rfl⟩ | hp
      · exact key p' (by simp [hp']) q hq
      · simp only [summary, List.mem_append]
        exact Or.inr (ihb p (by simp [hp]) q hq)
  | star a iha =>
    intro p hp q hq
    rcases List.mem_cons.1 hp with rfl | hp
    · simp only [pd, List.mem_map] at hq
      obtain ⟨q', hq', rfl⟩ := hq
      simp only [summary, List.mem_map]
      exact ⟨q', iha a (by simp) q' hq', rfl⟩
    · simp only [summary, List.mem_map] at hp
      obtain ⟨p', hp', rfl⟩ := hp
      simp only [pd, List.mem_append, List.mem_map] at hq
      simp only [summary, List.mem_map]
      rcases hq with ⟨q', hq', rfl⟩ | hq
      · exact ⟨q', iha p' (by simp [hp']) q' hq', rfl⟩
      · split at hq
        · simp only [List.mem_map] at hq
          obtain ⟨q', hq', rfl⟩ := hq
          exact ⟨q', iha a (by simp) q' hq', rfl⟩
        · cases hq

/-- Every state of the recogniser consists of members of one finite list. -/
theorem run_summary (r : RE) (S : List RE) (hS : ∀ p ∈ S, p ∈ r :: summary r) (s : Str) :
    ∀ p ∈ run S s, p ∈ r :: summary r := by
  induction s generalizing S with
  | nil => exact hS
  | cons c s ih =>
    apply ih
    intro p hp
    obtain ⟨q, hq, hp⟩ := List.mem_flatMap.1 hp
    exact List.mem_cons_of_mem _ (summary_closed r c q (hS q hq) p hp)

/-! ## First, last and adjacent characters -/

/-- Characters a string of the language can start with. -/
def first : RE → List Nat
  | none => []
  | lit [] => []
  | lit (x :: _) => [x]
  | alt a b => first a ++ first b
  | cat a b => first a ++ (if nullable a then first b else [])
  | star a => first a

/-- Last character of a string, as a list. -/
def lastOf : Str → List Nat
  | [] => []
  | [x] => [x]
  | _ :: w => lastOf w

/-- Characters a string of the language can end with. -/
def last : RE → List Nat
  | none => []
  | lit w => lastOf w
  | alt a b => last a ++ last b
  | cat a b => last b ++ (if nullable b then last a else [])
  | star a => last a

theorem first_of (r : RE) (c : Nat) (s : Str) (h : lang r (c :: s)) : c ∈ first r := by
  induction r generalizing s with
  | none => exact h.elim
  | lit w => simp only [lang] at h; subst h; simp [first]
  | alt a b iha ihb =>
    rcases h with h | h
    · exact List.mem_append_left _ (iha s h)
    · exact List.mem_append_right _ (ihb s h)
  | cat a b iha ihb =>
    obtain ⟨x, y, h, hx, hy⟩ := h
    cases x with
    | nil =>
      simp only [List.nil_append] at h; subst h
      apply List.mem_append_right
      rw [if_pos ((nullable_iff a).2 hx)]; exact ihb s hy
    | cons d x =>
      simp only [List.cons_append, List.cons.injEq] at h
      obtain ⟨rfl, rfl⟩ := h
      exact List.mem_append_left _ (iha x hx)
  | star a iha =>
    obtain ⟨x, y, rfl, hx, _⟩ := (star_cons_iff _ _ _).1 h
    exact iha x hx

theorem lastOf_append (s : Str) (c : Nat) : lastOf (s ++ [c]) = [c] := by
  induction s with
  | nil => rfl
  | cons x s ih => cases s with
    | nil => rfl
    | cons y s => simpa [lastOf] using ih

theorem append_singleton_cases {x y s : Str} {c : Nat} (h : x ++ y = s ++ [c]) :
    (y = [] ∧ x = s ++ [c]) ∨ ∃ y', y = y' ++ [c] ∧ s = x ++ y' := by
  rcases List.eq_nil_or_concat y with rfl | ⟨y', d, rfl⟩
  · left; simpa using h
  · right
    rw [List.concat_eq_append] at h
    rw [← List.append_assoc] at h
    have := List.append_inj' h rfl
    obtain ⟨h1, h2⟩ := this
    simp only [List.cons.injEq, and_true] at h2
    exact ⟨y', by rw [List.concat_eq_append, h2], h1.symm⟩

theorem last_of (r : RE) (c : Nat) (s : Str) (h : lang r (s ++ [c])) : c ∈ last r := by
  induction r generalizing s with
  | none => exact h.elim
  | lit w => simp only [lang] at h; subst h; simp [last, lastOf_append]
  | alt a b iha ihb =>
    rcases h with h | h
    · exact List.mem_append_left _ (iha s h)
    · exact List.mem_append_right _ (ihb s h)
  | cat a b iha ihb =>
    obtain ⟨x, y, h, hx, hy⟩ := h
    rcases append_singleton_cases h.symm with ⟨rfl, rfl⟩ | ⟨y', rfl, rfl⟩
    · apply List.mem_append_right
      rw [if_pos ((nullable_iff b).2 hy)]; exact iha s hx
    · exact List.mem_append_left _ (ihb y' hy)
  | star a iha =>
    simp only [lang] at h
    generalize hw : s ++ [c] = w at h
    induction h generalizing s with
    | nil => simp at hw
    | @cons x y hx _ ih =>
      rcases append_singleton_cases hw.symm with ⟨rfl, rfl⟩ | ⟨y', rfl, rfl⟩
      · exact iha s hx
      · exact ih y' rfl

/-- `noPair p r`: conservative check that no string of the language has adjacent characters
`x`, `y` with `p x y`. -/
def noPairLit (p : Nat → Nat → Bool) : Str → Bool
  | [] => true
  | [_] => true
  | x :: y :: w => (!p x y) && noPairLit p (y :: w)

/-- No `p`-pair between two character lists. -/
def noCross (p : Nat → Nat → Bool) (l m : List Nat) : Bool :=
  l.all fun x => m.all fun y => !p x y

/-- See `noPairLit`. -/
def noPair (p : Nat → Nat → Bool) : RE → Bool
  | none => true
  | lit w => noPairLit p w
  | alt a b => noPair p a && noPair p b
  | cat a b => noPair p a && noPair p b && noCross p (last a) (first b)
  | star a => noPair p a && noCross p (last a) (first a)

theorem noCross_ok {p l m x y} (h : noCross p l m = true) (hx : x ∈ l) (hy : y ∈ m) :
    p x y = false := by
  simpa using List.all_eq_true.1 (List.all_eq_true.1 h x hx) y hy

theorem noPairLit_ok (p : Nat → Nat → Bool) (w a b : Str) (x y : Nat)
    (h : noPairLit p w = true) (hw : w = a ++ x :: y :: b) : p x y = false := by
  induction a generalizing w with
  | nil => subst hw; simp [noPairLit] at h; exact h.1
  | cons c a ih =>
    subst hw
    apply ih (a ++ x :: y :: b) _ rfl
    cases a <;> simp_all [noPairLit]

/-- Where a pair of adjacent characters of a concatenation lies. -/
theorem pair_split {u v a b : Str} {x y : Nat} (h : u ++ v = a ++ x :: y :: b) :
    (∃ b', u = a ++ x :: y :: b' ∧ b = b' ++ v) ∨ (u = a ++ [x] ∧ v = y :: b) ∨
      (∃ a', v = a' ++ x :: y :: b ∧ a = u ++ a') := by
  rcases List.append_eq_append_iff.1 h with ⟨a', h1, h2⟩ | ⟨b', h1, h2⟩
  · exact Or.inr (Or.inr ⟨a', h2, h1⟩)
  · cases b' with
    | nil => right; right; exact ⟨[], by simpa using h2.symm, by simpa using h1.symm⟩
    | cons c b' =>
      simp only [List.cons_append, List.cons.injEq] at h2
      obtain ⟨rfl, h2⟩ := h2
      cases b' with
      | nil => right; left; exact ⟨h1, by simpa using h2.symm⟩
      | cons d b' =>
        simp only [List.cons_append, List.cons.injEq] at h2
        obtain ⟨rfl, rfl⟩ := h2
        left; exact ⟨b', h1, rfl⟩

theorem noPair_ok (p : Nat → Nat → Bool) (r : RE) (hr : noPair p r = true) (a b : Str)
    (x y : Nat) (h : lang r (a ++ x :: y :: b)) : p x y = false := by
  induction r generalizing a b with
  | none => exact h.elim
  | lit w => exact noPairLit_ok p w a b x y hr h.symm
  | alt r₁ r₂ ih₁ ih₂ =>
    simp only [noPair, Bool.and_eq_true] at hr
    rcases h with h | h
    · exact ih₁ hr.1 a b h
    · exact ih₂ hr.2 a b h
  | cat r₁ r₂ ih₁ ih₂ =>
    simp only [noPair, Bool.and_eq_true] at hr
    obtain ⟨u, v, h, hu, hv⟩ := h
    rcases pair_split h.symm with ⟨b', rfl, _⟩ | ⟨rfl, rfl⟩ | ⟨a', rfl, _⟩
    · exact ih₁ hr.1.1 _ _ hu
    · exact noCross_ok hr.2 (last_of _ _ _ hu) (first_of _ _ _ hv)
    · exact ih₂ hr.1.2 _ _ hv
  | star r ih =>
    simp only [noPair, Bool.and_eq_true] at hr
    simp only [lang] at h
    generalize hw : a ++ x :: y :: b = w at h
    induction h generalizing a with
    | nil => simp at hw
    | @cons u v hu hv ihs =>
      rcases pair_split hw.symm with ⟨b', rfl, _⟩ | ⟨rfl, rfl⟩ | ⟨a', rfl, _⟩
      · exact ih hr.1 _ _ hu
      · exact noCross_ok hr.2 (last_of _ _ _ hu) (first_of (star r) _ _ hv)
      · exact ihs a' rfl

end RE

end Nisaba
