import Verif.Lemmas.NtCompose
/-!
# Factors that rewrite stages keep
-/
namespace Nisaba.NT

/-- No occurrence of `l` overlaps an occurrence of `F`. -/
def NoOv (l F : Str) : Prop :=
  (∀ t, t ≠ [] → t <:+ l → ¬ t <+: F ∧ ¬ F <+: t) ∧
  (∀ s, s ≠ [] → s <:+ F → l ≠ [] → ¬ l <+: s ∧ ¬ s <+: l)

/-- Nonempty suffixes. -/
def sufs : Str → List Str
  | [] => []
  | c :: s => (c :: s) :: sufs s

theorem mem_sufs {s t : Str} (h : t ≠ []) (ht : t <:+ s) : t ∈ sufs s := by
  induction s with
  | nil => exact absurd (List.suffix_nil.1 ht) h
  | cons c s ih =>
    rcases List.suffix_cons_iff.1 ht with rfl | ht
    · simp [sufs]
    · simp [sufs, ih ht]

/-- One is a prefix of the other. -/
def compat (x y : Str) : Bool := pre x y || pre y x

theorem compat_false {x y : Str} (h : compat x y = false) : ¬ x <+: y ∧ ¬ y <+: x := by
  rw [compat, Bool.or_eq_false_iff] at h
  exact ⟨fun k => Bool.eq_false_iff.1 h.1 (pre_iff.2 k), fun k => Bool.eq_false_iff.1 h.2 (pre_iff.2 k)⟩

/-- Decision of `NoOv`. -/
def noOvB (l F : Str) : Bool :=
  ((sufs l).all fun t => !compat t F) && (sufs F).all fun s => !compat l s

theorem noOvB_iff {l F : Str} (h : noOvB l F = true) : NoOv l F := by
  rw [noOvB, Bool.and_eq_true] at h
  refine ⟨fun t ht hs => compat_false ?_, fun s hs hF _ => compat_false ?_⟩
  · have := List.all_eq_true.1 h.1 t (mem_sufs ht hs)
    simpa using this
  · have := List.all_eq_true.1 h.2 s (mem_sufs hs hF)
    simpa using this

/-- Two factors without overlap. -/
theorem noOv_split {l F u v a b : Str} (hl : l ≠ []) (h : NoOv l F)
    (he : u ++ l ++ v = a ++ F ++ b) : F <:+: u ∨ F <:+: v := by
  rw [List.append_assoc, List.append_assoc] at he
  rcases List.append_eq_append_iff.1 he with ⟨c, h1, h2⟩ | ⟨c, h1, h2⟩
  · -- `a = u ++ c`
    rcases List.append_eq_append_iff.1 h2 with ⟨d, h3, h4⟩ | ⟨d, h3, h4⟩
    · -- `c = l ++ d`
      exact .inr ⟨d, b, by rw [h4, List.append_assoc]⟩
    · -- `l = c ++ d`
      by_cases hd : d = []
      · subst hd
        rw [List.nil_append] at h4
        exact .inr ⟨[], b, by rw [← h4, List.nil_append]⟩
      · exfalso
        have k := h.1 d hd ⟨c, h3.symm⟩
        rcases List.append_eq_append_iff.1 h4 with ⟨w, hw, _⟩ | ⟨w, hw, _⟩
        · exact k.2 ⟨w, hw.symm⟩
        · exact k.1 ⟨w, hw.symm⟩
  · -- `u = a ++ c`
    rcases List.append_eq_append_iff.1 h2 with ⟨d, h3, h4⟩ | ⟨d, h3, h4⟩
    · exact .inl ⟨a, d, by rw [h1, h3, List.append_assoc]⟩
    · by_cases hd : d = []
      · subst hd
        rw [List.append_nil] at h3
        exact .inl ⟨a, [], by rw [h1, h3, List.append_nil]⟩
      · exfalso
        have k := h.2 d hd ⟨c, h3.symm⟩ hl
        rcases List.append_eq_append_iff.1 h4 with ⟨w, hw, _⟩ | ⟨w, hw, _⟩
        · exact k.1 ⟨w, hw.symm⟩
        · exact k.2 ⟨w, hw.symm⟩

/-- What a rule does to a factor: it does not touch it. -/
theorem noOv_replace {l r F u v : Str} (hl : l ≠ []) (h : NoOv l F)
    (hi : F <:+: u ++ l ++ v) : F <:+: u ++ r ++ v := by
  obtain ⟨a, b, he⟩ := hi
  rcases noOv_split hl h he.symm with ⟨p, q, h1⟩ | ⟨p, q, h1⟩
  · exact ⟨p, q ++ r ++ v, by rw [← h1]; simp⟩
  · exact ⟨u ++ r ++ p, q, by rw [← h1]; simp⟩

/-- A property of the text, written and still to be read, that every rule keeps. -/
theorem cdr_inv {τ : Rel} {C : Cx Nat} {P : Str → Prop}
    (h : ∀ l r u v, τ l r → P (u ++ l ++ v) → P (u ++ r ++ v)) {out rest fin : Str}
    (hc : Cdr τ C out rest fin) (hp : P (out ++ rest)) : P fin := by
  induction hc with
  | done => simpa using hp
  | insEnd h' =>
    have := h _ _ _ [] h' (by simpa using hp)
    simpa using this
  | apply h' _ _ _ _ ih =>
    apply ih
    exact h _ _ _ _ h' (by rw [List.append_assoc]; exact hp)
  | @ins out r rest fin c h' _ _ _ ih =>
    apply ih
    have := h _ _ out (c :: rest) h' (by simpa using hp)
    simpa using this
  | copy _ _ ih => apply ih; simpa using hp

/-- A relation keeps a factor. -/
def Keeps (F : Str) (R : Rel) : Prop := ∀ x y, R x y → F <:+: x → F <:+: y

theorem keeps_cdr {τ : Rel} {F : Str}
    (h : ∀ l r, τ l r → (l = [] ∧ r = []) ∨ (l ≠ [] ∧ NoOv l F)) (L R : Lang) :
    Keeps F (cdrewrite τ L R) := by
  intro x y hxy hx
  refine cdr_inv (P := fun s => F <:+: s) ?_ hxy.2.2 (by simpa using hx)
  intro l r u v hm hp
  rcases h l r hm with ⟨rfl, rfl⟩ | ⟨h1, h2⟩
  · exact hp
  · exact noOv_replace h1 h2 hp

/-- Check for a list of rules. -/
def keepFB (F : Str) (rs : List (Str × Str)) : Bool :=
  rs.all fun r => !r.1.isEmpty && noOvB r.1 F

theorem keeps_rules {rs : List (Str × Str)} {F : Str} (h : keepFB F rs = true) (L R : Lang) :
    Keeps F (cdrewrite (rules rs) L R) := by
  refine keeps_cdr ?_ L R
  intro l r hm
  have h1 := List.all_eq_true.1 h _ hm
  rw [Bool.and_eq_true] at h1
  exact .inr ⟨(by rintro rfl; simp at h1), noOvB_iff h1.2⟩

/-- A list of relations that keep a factor. -/
def KeepsL (F : Str) (rs : List Rel) : Prop := ∀ R ∈ rs, Keeps F R

theorem keepsL_nil {F : Str} : KeepsL F [] := by intro R hR; cases hR
theorem keepsL_cons {F : Str} {R : Rel} {rs : List Rel} (h : Keeps F R) (k : KeepsL F rs) :
    KeepsL F (R :: rs) := by
  intro S hS
  rw [List.mem_cons] at hS
  rcases hS with rfl | hS
  exacts [h, k S hS]
theorem keepsL_append {F : Str} {rs ss : List Rel} (h : KeepsL F rs) (k : KeepsL F ss) :
    KeepsL F (rs ++ ss) := by
  intro R hR
  rw [List.mem_append] at hR
  rcases hR with hR | hR
  exacts [h R hR, k R hR]

theorem KeepsL.compose {F : Str} {rs : List Rel} (h : KeepsL F rs) : Keeps F (compose rs) := by
  induction rs with
  | nil => intro x y hxy hx; rwa [← show x = y from hxy]
  | cons R rs ih =>
    intro x y hxy hx
    rw [compose_cons] at hxy
    obtain ⟨z, h1, h2⟩ := hxy
    exact ih (fun S hS => h S (by simp [hS])) z y h2 (h R (by simp) x z h1 hx)

/-- At the left side of a rule that no other occurrence of a rule overlaps, the rule is applied. -/
theorem cdr_reach {l r : Str} {C : Cx Nat} (hl : l ≠ []) {out rest fin w : Str} (u : Str)
    (h : Cdr (rules [(l, r)]) C out rest fin) (he : rest = u ++ w)
    (hov2 : ∀ t, t ≠ [] → t <:+ l → t ≠ l → ¬ t <+: w ∧ ¬ w <+: t) :
    ∃ out', Cdr (rules [(l, r)]) C out' w fin := by
  induction h generalizing u with
  | done h =>
    have : w = [] := by
      have := congrArg List.length he
      simp only [List.length_nil, List.length_append] at this
      exact List.length_eq_zero_iff.1 (by omega)
    subst this
    exact ⟨_, .done h⟩
  | insEnd h =>
    rw [rules, List.mem_singleton] at h
    exact absurd (congrArg Prod.fst h).symm hl
  | @apply out l' r' rest fin h hne hL hR k ih =>
    have h' := h
    rw [rules, List.mem_singleton] at h'
    injection h' with e1 e2
    subst e1; subst e2
    rcases List.append_eq_append_iff.1 he with ⟨c, h1, h2⟩ | ⟨c, h1, h2⟩
    · exact ih c h2
    · by_cases hu : u = []
      · subst hu
        rw [List.nil_append] at he
        exact ⟨out, by rw [← he]; exact .apply h hne hL hR k⟩
      · by_cases hc : c = []
        · subst hc
          exact ih [] (by simpa using h2.symm)
        · exfalso
          have k := hov2 c hc ⟨u, h1.symm⟩ (by
            rintro rfl
            have := congrArg List.length h1
            have := List.length_pos_iff.2 hu
            simp only [List.length_append] at *
            omega)
          exact k.1 ⟨_, h2.symm⟩
  | ins h =>
    rw [rules, List.mem_singleton] at h
    exact absurd (congrArg Prod.fst h).symm hl
  | @copy out rest fin c h k ih =>
    cases u with
    | nil =>
      rw [List.nil_append] at he
      exact ⟨out, by rw [← he]; exact .copy h k⟩
    | cons d u =>
      injection he with h1 h2
      exact ih u h2

/-- A rule without contexts is applied there. -/
theorem cdr_fire {l r w x y : Str} (hl : l ≠ []) (u : Str) (he : x = u ++ (l ++ w))
    (hov : ((sufs l).tail.all fun t => !compat t l) = true)
    (h : cdrewrite (rules [(l, r)]) (str []) (str []) x y) :
    ∃ out, Cdr (rules [(l, r)]) (ctxOf (str []) (str [])) (out ++ r) w y := by
  obtain ⟨out, ho⟩ := cdr_reach (w := l ++ w) hl u h.2.2 he (by
    intro t ht hs hne
    have hm : t ∈ (sufs l).tail := by
      have := mem_sufs ht hs
      cases l with
      | nil => exact absurd rfl hl
      | cons c l =>
        simp only [sufs, List.mem_cons] at this
        rcases this with h | h
        · exact absurd h hne
        · exact h
    have h1 := List.all_eq_true.1 hov t hm
    have h2 := compat_false (x := t) (y := l) (by simpa using h1)
    have hlen : t.length ≤ l.length := by
      obtain ⟨a, rfl⟩ := hs
      simp
    constructor
    · intro h3
      exact h2.1 (List.prefix_of_prefix_length_le h3 (List.prefix_append l w) hlen)
    · intro h3
      exact h2.2 ((List.prefix_append l w).trans h3))
  refine ⟨out, ?_⟩
  generalize hr : l ++ w = rest at ho
  cases ho with
  | done => simp [hl] at hr
  | insEnd => simp [hl] at hr
  | apply h' hne _ _ k =>
    rw [rules, List.mem_singleton] at h'
    injection h' with e1 e2
    subst e1; subst e2
    rw [List.append_cancel_left hr]
    exact k
  | ins h' =>
    rw [rules, List.mem_singleton] at h'
    exact absurd (congrArg Prod.fst h').symm hl
  | copy h' k =>
    exact absurd (ctx_nil_right _ _) (h' l r w (by simp [rules]) hr.symm (ctx_nil_left _ _))

/-- Occurrences of `l` overlap occurrences of `F` only when both start together. -/
def startB (l F : Str) : Bool :=
  ((sufs l).tail.all fun t => !compat t F) && (sufs F).tail.all fun s => !compat l s

theorem mem_sufs_tail {s t : Str} (h : t ≠ []) (ht : t <:+ s) (hne : t ≠ s) : t ∈ (sufs s).tail := by
  have := mem_sufs h ht
  cases s with
  | nil => cases this
  | cons c s =>
    simp only [sufs, List.mem_cons] at this
    rcases this with k | k
    · exact absurd k hne
    · exact k

theorem start_split {l F u v a b : Str} (h : startB l F = true)
    (he : u ++ l ++ v = a ++ F ++ b) : F <:+: u ∨ F <:+: v ∨ l ++ v = F ++ b := by
  rw [startB, Bool.and_eq_true] at h
  rw [List.append_assoc, List.append_assoc] at he
  rcases List.append_eq_append_iff.1 he with ⟨c, h1, h2⟩ | ⟨c, h1, h2⟩
  · by_cases hc : c = []
    · subst hc; exact .inr (.inr (by simpa using h2))
    rcases List.append_eq_append_iff.1 h2 with ⟨d, h3, h4⟩ | ⟨d, h3, h4⟩
    · exact .inr (.inl ⟨d, b, by rw [h4, List.append_assoc]⟩)
    · by_cases hd : d = []
      · subst hd
        rw [List.nil_append] at h4
        exact .inr (.inl ⟨[], b, by rw [← h4, List.nil_append]⟩)
      · exfalso
        have hm : d ∈ (sufs l).tail := mem_sufs_tail hd ⟨c, h3.symm⟩ (by
          rintro rfl
          have := congrArg List.length h3
          have := List.length_pos_iff.2 hc
          simp only [List.length_append] at *
          omega)
        have k := compat_false (x := d) (y := F) (by simpa using List.all_eq_true.1 h.1 d hm)
        rcases List.append_eq_append_iff.1 h4 with ⟨w, hw, _⟩ | ⟨w, hw, _⟩
        · exact k.2 ⟨w, hw.symm⟩
        · exact k.1 ⟨w, hw.symm⟩
  · by_cases hc : c = []
    · subst hc; exact .inr (.inr (by simpa using h2.symm))
    rcases List.append_eq_append_iff.1 h2 with ⟨d, h3, h4⟩ | ⟨d, h3, h4⟩
    · exact .inl ⟨a, d, by rw [h1, h3, List.append_assoc]⟩
    · by_cases hd : d = []
      · subst hd
        rw [List.append_nil] at h3
        exact .inl ⟨a, [], by rw [h1, h3, List.append_nil]⟩
      · exfalso
        have hm : d ∈ (sufs F).tail := mem_sufs_tail hd ⟨c, h3.symm⟩ (by
          rintro rfl
          have := congrArg List.length h3
          have := List.length_pos_iff.2 hc
          simp only [List.length_append] at *
          omega)
        have k := compat_false (x := l) (y := d) (by simpa using List.all_eq_true.1 h.2 d hm)
        rcases List.append_eq_append_iff.1 h4 with ⟨w, hw, _⟩ | ⟨w, hw, _⟩
        · exact k.1 ⟨w, hw.symm⟩
        · exact k.2 ⟨w, hw.symm⟩

end Nisaba.NT
