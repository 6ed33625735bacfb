import Verif.Model.NtFst
import Mathlib.Tactic.Tauto
import Mathlib.Tactic.ByContra
/-!
# Lemmas on the relations of `Verif.Model.NtFst`
-/
namespace Nisaba.NT

/-! ## Finite languages and rule lists -/

/-- A finite language. -/
def fin (xs : List Str) : Lang := fun x => x ∈ xs
/-- A finite relation. -/
def rules (rs : List (Str × Str)) : Rel := fun l r => (l, r) ∈ rs
/-- All concatenations. -/
def cats (xs ys : List Str) : List Str := xs.flatMap (fun x => ys.map (fun y => x ++ y))
/-- All pairs. -/
def prods (xs ys : List Str) : List (Str × Str) := xs.flatMap (fun x => ys.map (fun y => (x, y)))

theorem str_fin (s : Str) : str s = fin [s] := by
  funext x; simp [str, fin]

theorem cat_fin (xs ys : List Str) : cat (fin xs) (fin ys) = fin (cats xs ys) := by
  funext x
  apply propext
  constructor
  · rintro ⟨u, v, rfl, hu, hv⟩
    simp only [fin, cats, List.mem_flatMap, List.mem_map] at *
    exact ⟨u, hu, v, hv, rfl⟩
  · intro h
    simp only [fin, cats, List.mem_flatMap, List.mem_map] at h
    obtain ⟨u, hu, v, hv, rfl⟩ := h
    exact ⟨u, v, rfl, hu, hv⟩

theorem alt_fin (xs ys : List Str) : alt (fin xs) (fin ys) = fin (xs ++ ys) := by
  funext x; simp [alt, fin]

theorem oneOf_nil : oneOf [] = fin [] := by
  funext x; simp [oneOf, fin]

theorem oneOf_fin_cons (xs : List Str) (ls : List Lang) :
    oneOf (fin xs :: ls) = alt (fin xs) (oneOf ls) := by
  funext x; simp [oneOf, alt, fin]

theorem cross_fin (xs ys : List Str) : cross (fin xs) (fin ys) = rules (prods xs ys) := by
  funext x y
  apply propext
  simp only [cross, fin, rules, prods, List.mem_flatMap, List.mem_map, Prod.mk.injEq]
  constructor
  · rintro ⟨hx, hy⟩; exact ⟨x, hx, y, hy, rfl, rfl⟩
  · rintro ⟨a, ha, b, hb, rfl, rfl⟩; exact ⟨ha, hb⟩

theorem unionR_nil : unionR [] = rules [] := by
  funext x y; simp [unionR, rules]

theorem unionR_rules_cons (rs : List (Str × Str)) (ls : List Rel) :
    unionR (rules rs :: ls) = fun x y => rules rs x y ∨ unionR ls x y := by
  funext x y; simp [unionR]

/-- The union of a list of single rules. -/
theorem unionR_map {β : Type} (es : List β) (f g : β → Str) :
    unionR (es.map (fun e => cross (str (f e)) (str (g e)))) = rules (es.map (fun e => (f e, g e))) := by
  funext x y
  apply propext
  simp only [unionR, rules, List.mem_map]
  constructor
  · rintro ⟨r, ⟨e, he, rfl⟩, hx, hy⟩
    exact ⟨e, he, by rw [show x = f e from hx, show y = g e from hy]⟩
  · rintro ⟨e, he, h⟩
    injection h with h1 h2
    exact ⟨_, ⟨e, he, rfl⟩, h1.symm, h2.symm⟩

/-! ## Composition -/

theorem compose_cons (r : Rel) (rs : List Rel) : compose (r :: rs) = Rel.comp r (compose rs) := by
  cases rs with
  | nil =>
    funext x z
    apply propext
    simp only [compose, Rel.comp]
    constructor
    · intro h; exact ⟨z, h, rfl⟩
    · rintro ⟨y, h, rfl⟩; exact h
  | cons s ss => rfl

theorem compose_append (rs ss : List Rel) (x z : Str) :
    compose (rs ++ ss) x z ↔ ∃ y, compose rs x y ∧ compose ss y z := by
  induction rs generalizing x with
  | nil => simp [compose]
  | cons r rs ih =>
    rw [List.cons_append, compose_cons, compose_cons]
    simp only [Rel.comp, ih]
    constructor
    · rintro ⟨w, hw, y, hy, hz⟩; exact ⟨y, ⟨w, hw, hy⟩, hz⟩
    · rintro ⟨y, ⟨w, hw, hy⟩, hz⟩; exact ⟨w, hw, y, hy, hz⟩

/-- At most one output. -/
def Det (R : Rel) : Prop := ∀ x y z, R x y → R x z → y = z

theorem det_compose {rs : List Rel} (h : ∀ r ∈ rs, Det r) : Det (compose rs) := by
  induction rs with
  | nil => intro x y z hy hz; rw [← show x = y from hy]; exact hz
  | cons r rs ih =>
    rw [compose_cons]
    rintro x y z ⟨u, hu, hy⟩ ⟨v, hv, hz⟩
    have := h r (by simp) x u v hu hv
    subst this
    exact ih (fun s hs => h s (by simp [hs])) _ _ _ hy hz

/-! ## Rewriting -/

section
variable {α : Type} {τ : List α → List α → Prop} {C : Cx α}

/-- The model of rewriting agrees with the one used for the other grammars when no rule has an empty
input. -/
theorem cdr_iff_CDRewrite {τ : Rel} {C : Ctx} (hne : ∀ l r, τ l r → l ≠ []) (out rest y : Str) :
    Cdr τ ⟨C.left, C.right⟩ out rest y ↔ CDRewrite τ C out rest y := by
  constructor
  · intro h
    induction h with
    | done _ => exact .done _
    | insEnd h => exact absurd rfl (hne _ _ h)
    | apply h _ hl hr _ ih => exact .apply ⟨h, rfl, hl, hr⟩ ih
    | ins h => exact absurd rfl (hne _ _ h)
    | copy h _ ih => exact .copy (fun l r rest' ⟨h1, h2, h3, h4⟩ => h l r rest' h1 h2 h3 h4) ih
  · intro h
    induction h with
    | done => exact .done (fun r h => absurd rfl (hne _ _ h))
    | apply h _ ih =>
      obtain ⟨h1, rfl, h3, h4⟩ := h
      exact .apply h1 (hne _ _ h1) h3 h4 ih
    | copy h _ ih => exact .copy (fun l r rest' h1 h2 h3 h4 => h l r rest' ⟨h1, h2, h3, h4⟩) ih

/-- What is written stays. -/
theorem Cdr.out_prefix {out rest y : List α} (h : Cdr τ C out rest y) : ∃ w, y = out ++ w := by
  induction h with
  | done => exact ⟨[], by simp⟩
  | insEnd => exact ⟨_, rfl⟩
  | apply _ _ _ _ _ ih => obtain ⟨w, rfl⟩ := ih; exact ⟨_, List.append_assoc _ _ _⟩
  | ins _ _ _ _ ih => obtain ⟨w, rfl⟩ := ih; exact ⟨_, by simp only [List.append_assoc]; rfl⟩
  | copy _ _ ih => obtain ⟨w, rfl⟩ := ih; exact ⟨_, List.append_assoc _ _ _⟩

/-- Rewriting with rules of nonempty input always has an output. -/
theorem cdr_total (hne : ∀ l r, τ l r → l ≠ []) (out rest : List α) : ∃ y, Cdr τ C out rest y := by
  induction hn : rest.length using Nat.strongRecOn generalizing out rest with
  | _ n ih =>
    match rest with
    | [] => exact ⟨out, .done (fun r h => absurd rfl (hne _ _ h))⟩
    | c :: rest =>
      by_cases h : ∃ l r rest', τ l r ∧ c :: rest = l ++ rest' ∧ C.left out ∧ C.right rest'
      · obtain ⟨l, r, rest', h1, h2, h3, h4⟩ := h
        have hl := hne _ _ h1
        have : rest'.length < n := by
          rw [← hn, h2, List.length_append]
          have := List.length_pos_iff.2 hl
          omega
        obtain ⟨y, hy⟩ := ih _ this (out ++ r) rest' rfl
        exact ⟨y, h2 ▸ .apply h1 hl h3 h4 hy⟩
      · obtain ⟨y, hy⟩ := ih rest.length (by rw [← hn]; simp) (out ++ [c]) rest rfl
        refine ⟨y, .copy ?_ hy⟩
        intro l r rest' h1 h2 h3 h4
        exact h ⟨l, r, rest', h1, h2, h3, h4⟩

/-- Rewriting is single valued when at most one rule is applicable at a position. -/
theorem cdr_det (hne : ∀ l r, τ l r → l ≠ [])
    (hdet : ∀ l r l' r' x x', τ l r → τ l' r' → l ++ x = l' ++ x' → C.right x → C.right x' →
      l = l' ∧ r = r') {out rest y z : List α}
    (hy : Cdr τ C out rest y) (hz : Cdr τ C out rest z) : y = z := by
  induction hy generalizing z with
  | done h =>
    generalize hr : ([] : List α) = rest at hz
    cases hz with
    | done => rfl
    | insEnd h' hl' hr' => exact absurd rfl (hne _ _ h')
    | apply h' hl' => simp [hl'] at hr
    | ins h' => cases hr
    | copy => cases hr
  | insEnd h => exact absurd rfl (hne _ _ h)
  | @apply out l r rest fin h hl hL hR k ih =>
    generalize hr : l ++ rest = rest0 at hz
    cases hz with
    | done => simp [hl] at hr
    | insEnd => simp [hl] at hr
    | @apply _ l' r' rest' _ h' hl' hL' hR' k' =>
      obtain ⟨rfl, rfl⟩ := hdet _ _ _ _ _ _ h h' hr hR hR'
      have := List.append_cancel_left hr
      subst this
      exact ih k'
    | ins h' => exact absurd rfl (hne _ _ h')
    | copy h' => exact absurd hR (h' l r rest h hr.symm hL)
  | ins h => exact absurd rfl (hne _ _ h)
  | @copy out rest fin c h k ih =>
    generalize hr : c :: rest = rest0 at hz
    cases hz with
    | done => cases hr
    | insEnd => cases hr
    | @apply _ l' r' rest' _ h' hl' hL' hR' k' => exact absurd hR' (h _ _ _ h' hr hL')
    | ins h' => exact absurd rfl (hne _ _ h')
    | copy h' k' => injection hr with h1 h2; subst h1; subst h2; exact ih k'

/-- Rules that do not consume an element keep it. -/
theorem cdr_keeps {d : α} (hd : ∀ l r, τ l r → d ∉ l) {out rest y : List α}
    (h : Cdr τ C out rest y) (hm : d ∈ out ++ rest) : d ∈ y := by
  induction h with
  | done => simpa using hm
  | insEnd => simp at hm ⊢; exact .inl hm
  | apply h _ _ _ _ ih =>
    apply ih
    have := hd _ _ h
    simp only [List.mem_append] at hm ⊢
    tauto
  | ins h _ _ _ ih =>
    apply ih
    simp only [List.mem_append, List.mem_cons, List.not_mem_nil, or_false] at hm ⊢
    tauto
  | copy _ _ ih => apply ih; simpa using hm

/-- Characters at which no rule can start are copied. -/
theorem cdr_skip (hne : ∀ l r, τ l r → l ≠ []) {s : List α}
    (hs : ∀ c ∈ s, ∀ l r, τ l r → l.head? ≠ some c) (out rest y : List α) :
    Cdr τ C out (s ++ rest) y ↔ Cdr τ C (out ++ s) rest y := by
  induction s generalizing out with
  | nil => simp
  | cons c s ih =>
    rw [show out ++ c :: s = (out ++ [c]) ++ s by simp, ← ih (fun c hc => hs c (by simp [hc]))]
    constructor
    · intro h
      generalize hr : c :: s ++ rest = rest0 at h
      cases h with
      | done => cases hr
      | insEnd => cases hr
      | @apply _ l' r' rest' _ h' hl' hL' hR' k' =>
        exfalso
        cases l' with
        | nil => exact hl' rfl
        | cons a l' =>
          injection hr with h1 h2
          exact hs c (by simp) _ _ h' (by simp [h1])
      | ins h' => exact absurd rfl (hne _ _ h')
      | copy h' k' => injection hr with h1 h2; subst h1; subst h2; exact k'
    · intro h
      refine .copy ?_ h
      intro l r rest' h1 h2 _ _
      cases l with
      | nil => exact hne _ _ h1 rfl
      | cons a l =>
        injection h2 with h3 h4
        exact hs c (by simp) _ _ h1 (by simp [h3])

end

/-! ## Stars of finite relations -/

/-- The star of a finite relation. -/
theorem starR_cons_iff {a : Rel} {s y : Str} (hs : s ≠ []) :
    StarR a s y ↔ ∃ u v x z, a u x ∧ StarR a v z ∧ s = u ++ v ∧ y = x ++ z := by
  constructor
  · intro h
    cases h with
    | nil => exact absurd rfl hs
    | cons h k => exact ⟨_, _, _, _, h, k, rfl, rfl⟩
  · rintro ⟨u, v, x, z, h, k, rfl, rfl⟩; exact .cons h k

theorem starR_nil_iff {a : Rel} (hne : ∀ u x, a u x → u ≠ []) {y : Str} :
    StarR a [] y ↔ y = [] := by
  constructor
  · intro h
    generalize hr : ([] : Str) = s at h
    cases h with
    | nil => rfl
    | cons h k =>
      have := hne _ _ h
      have h2 := congrArg List.length hr
      have h3 := List.length_pos_iff.2 this
      simp at h2
      omega
  · rintro rfl; exact .nil

/-- The star of a relation is single valued when inputs are nonempty, have one output, and the rest
of an input after a shorter one starts no input. -/
theorem starR_det {a : Rel} (hne : ∀ u x, a u x → u ≠ []) (hfun : Det a)
    (hpre : ∀ u x w x', a u x → a (u ++ w) x' → w ≠ [] → ∀ u'' x'', a u'' x'' →
      ¬ (u'' <+: w) ∧ ¬ (w <+: u'')) : Det (StarR a) := by
  intro s
  induction hn : s.length using Nat.strongRecOn generalizing s with
  | _ n ih =>
    intro y z hy hz
    by_cases hs : s = []
    · subst hs
      rw [starR_nil_iff hne] at hy hz
      rw [hy, hz]
    · rw [starR_cons_iff hs] at hy hz
      obtain ⟨u, v, x, w, h, k, e, rfl⟩ := hy
      obtain ⟨u', v', x', w', h', k', e', rfl⟩ := hz
      have key : ∀ {u v x u' v' x' w w' : Str}, a u x → StarR a v w → s = u ++ v → a u' x' →
          StarR a v' w' → s = u' ++ v' → ∀ d, u' = u ++ d → d = [] := by
        intro u v x u' v' x' w w' h k e h' k' e' d hd
        by_contra hne'
        subst hd
        have e2 : v = d ++ v' := by
          rw [e, List.append_assoc] at e'
          exact List.append_cancel_left e'
        have hv : v ≠ [] := by rw [e2]; simp [hne']
        rw [starR_cons_iff hv] at k
        obtain ⟨u2, v2, x2, w2, h2, k2, e3, _⟩ := k
        have := hpre u x d x' h h' hne' u2 x2 h2
        rw [e2] at e3
        rcases List.append_eq_append_iff.1 e3 with ⟨t, ht, _⟩ | ⟨t, ht, _⟩
        · exact this.2 ⟨t, ht.symm⟩
        · exact this.1 ⟨t, ht.symm⟩
      have heq : u = u' := by
        rw [e] at e'
        rcases List.append_eq_append_iff.1 e' with ⟨t, ht, _⟩ | ⟨t, ht, _⟩
        · have := key h k e h' k' (e.trans e') t ht
          rw [ht, this, List.append_nil]
        · have := key h' k' (e.trans e') h k e t ht
          rw [ht, this, List.append_nil]
      subst heq
      have hv : v = v' := by rw [e] at e'; exact List.append_cancel_left e'
      subst hv
      have hx := hfun _ _ _ h h'
      subst hx
      have hlt : v.length < n := by
        have := List.length_pos_iff.2 (hne _ _ h)
        rw [← hn, e, List.length_append]
        omega
      rw [ih _ hlt v rfl _ _ k k']

end Nisaba.NT
