import Verif.Lemmas.NtVocalicTr
/-!
# The length sign after `` `i` `` is not printed
-/
namespace Nisaba.NT
open G2p Rom

set_option maxRecDepth 100000

/-! ## Rewriting without contexts -/

/-- No contexts. -/
abbrev C0 : Cx Nat := ctxOf (str []) (str [])

theorem c0_left (x : Str) : C0.left x := ctx_nil_left x _
theorem c0_right (x : Str) : C0.right x := ctx_nil_right x _

/-- The output written so far does not matter. -/
theorem cdr0_out {τ : Rel} {out rest y : Str} (h : Cdr τ C0 out rest y) (o : Str) :
    ∃ z, y = out ++ z ∧ Cdr τ C0 o rest (o ++ z) := by
  induction h generalizing o with
  | done h => exact ⟨[], by simp, by simpa using .done fun r hr _ => h r hr (c0_left _)⟩
  | @insEnd out r h _ hr => exact ⟨r, rfl, .insEnd h (c0_left _) hr⟩
  | @apply out l r rest fin h hne _ hr _ ih =>
    obtain ⟨z, h1, h2⟩ := ih (o ++ r)
    exact ⟨r ++ z, by rw [h1]; simp, .apply h hne (c0_left _) hr (by simpa using h2)⟩
  | @ins out r rest fin c h _ hr _ ih =>
    obtain ⟨z, h1, h2⟩ := ih (o ++ r ++ [c])
    exact ⟨r ++ c :: z, by rw [h1]; simp, .ins h (c0_left _) hr (by simpa using h2)⟩
  | @copy out rest fin c h _ ih =>
    obtain ⟨z, h1, h2⟩ := ih (o ++ [c])
    exact ⟨c :: z, by rw [h1]; simp, .copy (fun l r rest' hl he _ => h l r rest' hl he (c0_left _))
      (by simpa using h2)⟩

theorem cdr0_nil {τ : Rel} {out rest y : Str} (h : Cdr τ C0 out rest y) :
    ∃ z, y = out ++ z ∧ Cdr τ C0 [] rest z := cdr0_out h []

theorem cdr0_to {τ : Rel} {rest z : Str} (h : Cdr τ C0 [] rest z) (o : Str) :
    Cdr τ C0 o rest (o ++ z) := by
  obtain ⟨z', h1, h2⟩ := cdr0_out h o
  rw [List.nil_append] at h1
  rw [h1]; exact h2

theorem pre_split {l rest x y : Str} (h : l ++ rest = x ++ 96 :: y) (hl : 96 ∉ l) :
    ∃ x', x = l ++ x' ∧ rest = x' ++ 96 :: y := by
  rcases List.append_eq_append_iff.1 h with ⟨w, h1, h2⟩ | ⟨w, h1, h2⟩
  · exact ⟨w, h1, h2⟩
  · cases w with
    | nil => exact ⟨[], by simpa using h1.symm, by simpa using h2.symm⟩
    | cons c w =>
      injection h2 with h2 _
      exact absurd (by rw [h1, h2]; simp) hl

/-- A sign that no input contains separates. -/
theorem cdr0_split {τ : Rel} (hne : ∀ l r, τ l r → l ≠ []) (h96 : ∀ l r, τ l r → 96 ∉ l)
    {x y z : Str} (h : Cdr τ C0 [] (x ++ 96 :: y) z) :
    ∃ a c, Cdr τ C0 [] x a ∧ Cdr τ C0 [] y c ∧ z = a ++ 96 :: c := by
  have key : ∀ {out rest z}, Cdr τ C0 out rest z → ∀ x, rest = x ++ 96 :: y →
      ∃ a c, Cdr τ C0 [] x a ∧ Cdr τ C0 [] y c ∧ z = out ++ (a ++ 96 :: c) := by
    intro out rest z h
    induction h with
    | done => intro x hx; exact absurd hx (by simp)
    | insEnd => intro x hx; exact absurd hx (by simp)
    | @apply out l r rest fin h hl _ _ _ ih =>
      intro x hx
      obtain ⟨x', rfl, rfl⟩ := pre_split hx (h96 _ _ h)
      obtain ⟨a, c, h1, h2, h3⟩ := ih x' rfl
      exact ⟨r ++ a, c, .apply h hl (c0_left _) (c0_right _) (cdr0_to h1 _), h2, by rw [h3]; simp⟩
    | ins h => exact absurd rfl (hne _ _ h)
    | @copy out rest fin d h k ih =>
      intro x hx
      cases x with
      | nil =>
        injection hx with h1 h2
        subst h1; subst h2
        obtain ⟨c, h1, h2⟩ := cdr0_nil k
        exact ⟨[], c, .done fun r hr => absurd rfl (hne _ _ hr), h2, by rw [h1]; simp⟩
      | cons e x =>
        injection hx with h1 h2
        subst h1; subst h2
        obtain ⟨a, c, h1, h2, h3⟩ := ih x rfl
        refine ⟨d :: a, c, .copy ?_ (cdr0_to h1 _), h2, by rw [h3]; simp⟩
        intro l r rest' hl he _ _
        refine h l r (rest' ++ 96 :: y) hl ?_ (c0_left _) (c0_right _)
        rw [← List.append_assoc, ← he]
        rfl
  simpa using key h x rfl

theorem cdr0_join {τ : Rel} (hne : ∀ l r, τ l r → l ≠ []) (h96 : ∀ l r, τ l r → 96 ∉ l)
    {x y a c : Str} (h : Cdr τ C0 [] x a) (k : Cdr τ C0 [] y c) :
    Cdr τ C0 [] (x ++ 96 :: y) (a ++ 96 :: c) := by
  have key : ∀ {out x a}, Cdr τ C0 out x a → Cdr τ C0 out (x ++ 96 :: y) (a ++ 96 :: c) := by
    intro out x a h
    induction h with
    | @done out h =>
      refine .copy ?_ (by have := cdr0_to k (out ++ [96]); simpa using this)
      intro l r rest' hl he
      cases l with
      | nil => exact absurd rfl (hne _ _ hl)
      | cons d l => injection he with he _; exact absurd (by rw [he]; simp) (h96 _ _ hl)
    | insEnd h => exact absurd rfl (hne _ _ h)
    | apply h hl _ _ _ ih => rw [List.append_assoc]; exact .apply h hl (c0_left _) (c0_right _) ih
    | ins h => exact absurd rfl (hne _ _ h)
    | @copy out rest fin d h _ ih =>
      refine .copy ?_ ih
      intro l r rest' hl he _ _
      obtain ⟨x', h1, rfl⟩ := pre_split (x := d :: rest) he.symm (h96 _ _ hl)
      exact h l r x' hl h1 (c0_left _) (c0_right _)
  exact key h

/-! ## A length sign more -/

/-- The empty string or one that starts with a grapheme. -/
def Gst (y : Str) : Prop := y = [] ∨ ∃ w, y = 60 :: w

/-- The second string has one length sign after `` `i` `` less. -/
def Dl (x y : Str) : Prop := ∃ a y0, x = a ++ 96 :: (a!"i`" ++ (a!"{:h}" ++ y0)) ∧
  y = a ++ 96 :: (a!"i`" ++ y0) ∧ Gst y0

/-- The check of rules. -/
def dlCheck (rule : Str × Str) : Bool :=
  (decide (rule.1.head? = some 60) || decide (rule.1.head? = some 123)) && !rule.1.elem 96 &&
    !pre rule.1 a!"{:h}" && !pre a!"{:h}<" rule.1 &&
    (!decide (rule.1.head? = some 60) || decide (rule.2.head? = some 60))

theorem dlCheck_sound {l r : Str} (h : dlCheck (l, r) = true) :
    (l.head? = some 60 ∨ l.head? = some 123) ∧ 96 ∉ l ∧ (∀ w, l ++ w ≠ a!"{:h}") ∧
      (∀ w, a!"{:h}<" ++ w ≠ l) ∧ (l.head? = some 60 → r.head? = some 60) := by
  simp only [dlCheck, Bool.and_eq_true, Bool.or_eq_true, Bool.not_eq_true', decide_eq_true_eq,
    decide_eq_false_iff_not] at h
  obtain ⟨⟨⟨⟨h1, h2⟩, h3⟩, h4⟩, h5⟩ := h
  refine ⟨h1, ?_, ?_, ?_, ?_⟩
  · intro hm; rw [List.elem_eq_mem, decide_eq_false_iff_not] at h2; exact h2 hm
  · intro w hw; exact Bool.eq_false_iff.1 h3 (pre_iff.2 ⟨w, hw⟩)
  · intro w hw; exact Bool.eq_false_iff.1 h4 (pre_iff.2 ⟨w, hw⟩)
  · intro hh; rcases h5 with h5 | h5
    · exact absurd hh h5
    · exact h5

/-- A stage that keeps the relation. -/
def Sim (R : Rel) : Prop := ∀ x y z, Dl x y → R x z → ∃ w, R y w ∧ Dl z w

theorem head_ne {l : Str} {c : Nat} (h : l.head? = some c) : l ≠ [] := by rintro rfl; cases h

theorem gst_out {τ : Rel} (hne : ∀ l r, τ l r → l ≠ [])
    (h60 : ∀ l r, τ l r → l.head? = some 60 → r.head? = some 60) {y c : Str} (hy : Gst y)
    (h : Cdr τ C0 [] y c) : Gst c := by
  rcases hy with rfl | ⟨w, rfl⟩
  · exact .inl (Acr.cdr_end hne h)
  · right
    generalize hr : (60 :: w : Str) = rest0 at h
    cases h with
    | done => cases hr
    | insEnd => cases hr
    | @apply _ l r rest' _ h1 h2 _ _ h5 =>
      obtain ⟨z, hz, _⟩ := cdr0_nil h5
      have hl : l.head? = some 60 := by
        cases l with
        | nil => exact absurd rfl h2
        | cons d l => injection hr with hr _; rw [← hr]; rfl
      have := h60 _ _ h1 hl
      cases r with
      | nil => cases this
      | cons d r => injection this with this; exact ⟨r ++ z, by rw [hz, this]; simp⟩
    | ins h1 => exact absurd rfl (hne _ _ h1)
    | copy h1 h2 =>
      obtain ⟨z, hz, _⟩ := cdr0_nil h2
      injection hr with hr _
      exact ⟨z, by rw [hz, ← hr]; simp⟩

theorem over_app {p : Nat → Prop} {x y : Str} : Over p (x ++ y) ↔ Over p x ∧ Over p y := by
  simp only [Over, List.mem_append]
  constructor
  · intro h; exact ⟨fun a ha => h a (.inl ha), fun a ha => h a (.inr ha)⟩
  · rintro ⟨h, k⟩ a (ha | ha); exacts [h a ha, k a ha]

theorem dl_over {x y : Str} (h : Dl x y) (ho : Over byteLabel x) : Over byteLabel y := by
  obtain ⟨a, y0, rfl, rfl, _⟩ := h
  intro c hc
  apply ho
  simp only [List.mem_append, List.mem_cons] at hc ⊢
  tauto

theorem skip_i {τ : Rel} (hh : ∀ l r, τ l r → l.head? = some 60 ∨ l.head? = some 123) {y b : Str} :
    Cdr τ C0 [] (a!"i`" ++ y) b ↔ ∃ c, Cdr τ C0 [] y c ∧ b = a!"i`" ++ c := by
  have hne : ∀ l r, τ l r → l ≠ [] := fun l r h => by
    rcases hh l r h with h | h <;> exact head_ne h
  rw [cdr_skip hne (by
    intro c hc l r hl he
    rcases hh l r hl with h | h <;> rw [he] at h <;> injection h with h <;> subst h <;>
      simp at hc)]
  constructor
  · intro h
    obtain ⟨c, h1, h2⟩ := cdr0_nil h
    exact ⟨c, h2, by simpa using h1⟩
  · rintro ⟨c, h1, rfl⟩
    exact cdr0_to h1 _

theorem sim_of_check {rs : List (Str × Str)} (h : rs.all dlCheck = true) :
    Sim (cdrewrite (rules rs) (str []) (str [])) := by
  have hs : ∀ l r, rules rs l r → _ := fun l r hm => dlCheck_sound (List.all_eq_true.1 h (l, r) hm)
  have hne : ∀ l r, rules rs l r → l ≠ [] := fun l r hm => by
    rcases (hs l r hm).1 with h | h <;> exact head_ne h
  have h96 : ∀ l r, rules rs l r → 96 ∉ l := fun l r hm => (hs l r hm).2.1
  rintro x y z hd ⟨ho, hoz, hz⟩
  have hoy := dl_over hd ho
  obtain ⟨a, y0, rfl, rfl, hg⟩ := hd
  obtain ⟨a', b, h1, h2, rfl⟩ := cdr0_split hne h96 hz
  obtain ⟨b', h3, rfl⟩ := (skip_i fun l r hm => (hs l r hm).1).1 h2
  have h4 : ∃ c, b' = a!"{:h}" ++ c ∧ Cdr (rules rs) C0 [] y0 c := by
    have h5 : Cdr (rules rs) C0 [123] (a!":h}" ++ y0) b' := by
      refine Acr.cdr_copy (out := []) hne ?_ h3
      intro l r rest' hl he _ _
      obtain ⟨_, _, g1, g2, _⟩ := hs l r hl
      change a!"{:h}" ++ y0 = l ++ rest' at he
      rcases List.append_eq_append_iff.1 he with ⟨w, e1, e2⟩ | ⟨w, e1, e2⟩
      · cases w with
        | nil => exact g1 [] (by simpa using e1)
        | cons d w =>
          rcases hg with rfl | ⟨v, rfl⟩
          · cases e2
          · injection e2 with e2 _
            exact g2 w (by rw [e1, ← e2]; rfl)
      · exact g1 w e1.symm
    rw [cdr_skip hne (by
      intro c hc l r hl he
      rcases (hs l r hl).1 with h | h <;> rw [he] at h <;> injection h with h <;> subst h <;>
        simp at hc)] at h5
    obtain ⟨c, e1, e2⟩ := cdr0_nil h5
    exact ⟨c, e1, e2⟩
  obtain ⟨c, rfl, h5⟩ := h4
  have hgc := gst_out hne (fun l r hm => (hs l r hm).2.2.2.2) hg h5
  have hdl : Dl (a' ++ 96 :: (a!"i`" ++ (a!"{:h}" ++ c))) (a' ++ 96 :: (a!"i`" ++ c)) :=
    ⟨a', c, rfl, rfl, hgc⟩
  refine ⟨_, ⟨hoy, dl_over hdl hoz, ?_⟩, hdl⟩
  exact cdr0_join hne h96 h1 ((skip_i fun l r hm => (hs l r hm).1).2 ⟨c, h5, rfl⟩)

theorem sim_of_check' {rs : List (Str × Str)} (h : rs.all dlCheck = true) :
    Sim (cdrewrite (rules rs) (fin [[]]) (fin [[]])) := by
  rw [← str_fin]; exact sim_of_check h

def SimL (rs : List Rel) : Prop := ∀ R ∈ rs, Sim R

theorem simL_append {rs ss : List Rel} (h : SimL rs) (k : SimL ss) : SimL (rs ++ ss) := by
  intro R hR
  rw [List.mem_append] at hR
  rcases hR with hR | hR
  exacts [h R hR, k R hR]

theorem simL_nil : SimL [] := by intro R hR; cases hR
theorem simL_cons {R : Rel} {rs : List Rel} (h : Sim R) (k : SimL rs) : SimL (R :: rs) := by
  intro S hS
  rw [List.mem_cons] at hS
  rcases hS with rfl | hS
  exacts [h, k S hS]

theorem sim_compose {rs : List Rel} (h : SimL rs) : Sim (compose rs) := by
  induction rs with
  | nil => rintro x y z hd rfl; exact ⟨y, rfl, hd⟩
  | cons r rs ih =>
    rw [compose_cons]
    rintro x y z hd ⟨u, hu, hz⟩
    obtain ⟨w, h1, h2⟩ := h r (by simp) x y u hd hu
    obtain ⟨v, h3, h4⟩ := ih (fun R hR => h R (by simp [hR])) u w z h2 hz
    exact ⟨v, ⟨w, h1, h3⟩, h4⟩

section
attribute [local irreducible] Brh.gr Psa.ph Ltn.tr

macro "nt_dstage" : tactic => `(tactic| (nt_norm; exact sim_of_check' (by decide +kernel)))
macro "nt_dstages" : tactic => `(tactic|
  (repeat refine simL_cons (by nt_dstage) ?_
   exact simL_nil))

theorem dl_DIPHTHONG_GR : SimL DIPHTHONG_GR := by unfold DIPHTHONG_GR; nt_dstages
theorem dl_NON_LABIAL_ANUSVARA : SimL NON_LABIAL_ANUSVARA := by unfold NON_LABIAL_ANUSVARA; nt_dstages
theorem dl_RDH_DH : SimL RDH_DH := by unfold RDH_DH; nt_dstages
end

theorem dl_TRANSLIT_LONG : SimL TRANSLIT_LONG := by
  have h : (Psa.PHONEMES.all fun p =>
      [(p.ph ++ Psa.ph a!"DURH", Ltn.doubleSubstringTr p.psa)].all dlCheck) = true := by decide +kernel
  intro R hR
  rw [TRANSLIT_LONG, List.mem_map] at hR
  obtain ⟨p, hp, rfl⟩ := hR
  rw [rewrite, str_fin, str_fin, cross_fin]
  exact sim_of_check (List.all_eq_true.1 h p hp)

theorem dl_head : SimL (TXN_TO_PSA_COMMON ++ TRANSLIT_LONG) :=
  simL_append (simL_append (simL_append dl_DIPHTHONG_GR dl_NON_LABIAL_ANUSVARA) dl_RDH_DH) dl_TRANSLIT_LONG

/-! ## Transliteration -/

/-- Rules that read a length sign. -/
def tbCheck (rule : Str × Str) : Bool :=
  decide (rule.1.head? = some 123) && !rule.1.elem 96 &&
    ((!pre rule.1 a!"{:h}" && !pre a!"{:h}" rule.1) ||
      (seq rule.1 a!"{:h}" && seq rule.2 a!"`DEL`"))

theorem tb_all : (psaRules.all tbCheck && psaRules.any fun r => seq r.1 a!"{:h}") = true := by
  decide +kernel

theorem tbCheck_sound {l r : Str} (h : tbCheck (l, r) = true) :
    l.head? = some 123 ∧ 96 ∉ l ∧
      (((∀ w, l ++ w ≠ a!"{:h}") ∧ ∀ w, a!"{:h}" ++ w ≠ l) ∨ l = a!"{:h}" ∧ r = a!"`DEL`") := by
  simp only [tbCheck, Bool.and_eq_true, Bool.or_eq_true, Bool.not_eq_true', decide_eq_true_eq] at h
  obtain ⟨⟨h1, h2⟩, h3⟩ := h
  refine ⟨h1, ?_, ?_⟩
  · intro hm; rw [List.elem_eq_mem, decide_eq_false_iff_not] at h2; exact h2 hm
  · rcases h3 with ⟨h3, h4⟩ | ⟨h3, h4⟩
    · exact .inl ⟨fun w hw => Bool.eq_false_iff.1 h3 (pre_iff.2 ⟨w, hw⟩),
        fun w hw => Bool.eq_false_iff.1 h4 (pre_iff.2 ⟨w, hw⟩)⟩
    · exact .inr ⟨seq_eq.1 h3, seq_eq.1 h4⟩

/-- `{:h}` becomes the empty translit. -/
theorem tbp_dl {x y z : Str} (hd : Dl x y) (h : compose TRANSLIT_BY_PSA x z) :
    ∃ a c, z = a ++ 96 :: (a!"i`" ++ (a!"`DEL`" ++ c)) ∧ Gst c ∧
      compose TRANSLIT_BY_PSA y (a ++ 96 :: (a!"i`" ++ c)) := by
  rw [tbp_eq] at h ⊢
  have hall := tb_all
  rw [Bool.and_eq_true] at hall
  have hs : ∀ l r, rules psaRules l r → _ := fun l r hm =>
    tbCheck_sound (List.all_eq_true.1 hall.1 (l, r) hm)
  have hne : ∀ l r, rules psaRules l r → l ≠ [] := fun l r hm => head_ne (hs l r hm).1
  have h96 : ∀ l r, rules psaRules l r → 96 ∉ l := fun l r hm => (hs l r hm).2.1
  obtain ⟨ho, hoz, hz⟩ := h
  have hoy := dl_over hd ho
  obtain ⟨a, y0, rfl, rfl, hg⟩ := hd
  obtain ⟨a', b, h1, h2, rfl⟩ := cdr0_split hne h96 hz
  obtain ⟨b', h3, rfl⟩ := (skip_i fun l r hm => .inr (hs l r hm).1).1 h2
  have hno : ∀ l r rest', rules psaRules l r → a!"{:h}" ++ y0 = l ++ rest' →
      l = a!"{:h}" ∧ r = a!"`DEL`" := by
    intro l r rest' hl he
    rcases (hs l r hl).2.2 with ⟨g1, g2⟩ | hr
    · rcases List.append_eq_append_iff.1 he with ⟨w, e1, e2⟩ | ⟨w, e1, e2⟩
      · exact absurd e1.symm (g2 w)
      · exact absurd e1.symm (g1 w)
    · exact hr
  have h4 : ∃ c, b' = a!"`DEL`" ++ c ∧ Cdr (rules psaRules) C0 [] y0 c := by
    generalize hr : a!"{:h}" ++ y0 = rest0 at h3
    cases h3 with
    | done => cases hr
    | insEnd => cases hr
    | apply g1 g2 _ _ g5 =>
      obtain ⟨rfl, rfl⟩ := hno _ _ _ g1 hr
      obtain rfl := List.append_cancel_left hr
      obtain ⟨c, e1, e2⟩ := cdr0_nil g5
      exact ⟨c, e1, e2⟩
    | ins g1 => exact absurd rfl (hne _ _ g1)
    | copy g1 g2 =>
      exfalso
      obtain ⟨r, hr1, hr2⟩ := List.any_eq_true.1 hall.2
      exact g1 r.1 r.2 y0 hr1 (by rw [seq_eq.1 hr2]; exact hr.symm) (c0_left _) (c0_right _)
  obtain ⟨c, rfl, h5⟩ := h4
  have hgc := gst_out hne (fun l r hm hh => by rw [(hs l r hm).1] at hh; cases hh) hg h5
  refine ⟨a', c, rfl, hgc, hoy, ?_, ?_⟩
  · intro d hd
    apply hoz
    simp only [List.mem_append, List.mem_cons] at hd ⊢
    tauto
  · exact cdr0_join hne h96 h1 ((skip_i fun l r hm => .inr (hs l r hm).1).2 ⟨c, h5, rfl⟩)

/-! ## Printing -/

theorem print_out {m : Mode} {vs : List Tok} (hv : OK M0 vs) {z : Str}
    (hz : compose (printOnlyLtn m) (enc vs) z) : z = (vs.filter isR).flatMap (prTok m) := by
  have hpl : Plain (vs.filter isR) := fun a ha => hv.plain a (List.mem_filter.1 ha).1
  have hx := extract_iff hv.plain
  rw [printOnlyLtn, printOnlyGlyph, compose_cons] at hz
  obtain ⟨u, hu, hz⟩ := hz
  change printGlyph m Ltn.CHARS _ _ at hz
  rw [printGlyph_eq] at hz
  have := hx.2 u hu (fun hc => (pr_chars hz hc).1 rfl) (fun hc => (pr_chars hz hc).2.1 rfl)
  subst this
  exact (starR_toks (prTab_tok m) hpl hz).1

theorem prTok_DEL (m : Mode) : prTok m (.t a!"DEL") = [] := by
  have : seq (glyphOf a!"DEL") [] = true := by decide +kernel
  rw [prTok, seq_eq.1 this]
  cases m <;> rfl

/-- The outputs of two sequences are the same. -/
def Same (m : Mode) (us vs : List Tok) : Prop :=
  ∀ y, compose (TXN_TO_PSAF m) (enc us) y → compose (TXN_TO_PSAF m) (enc vs) y

theorem same_dl (m : Mode) {o us : List Tok} (hu : us = [] ∨ ∃ s vs, us = .g s :: vs)
    (h1 : OK M1r (o ++ .t a!"i" :: .p a!":h" :: us)) (h2 : OK M1r (o ++ .t a!"i" :: us)) :
    Same m (o ++ .t a!"i" :: .p a!":h" :: us) (o ++ .t a!"i" :: us) := by
  intro y hy
  have hd : Dl (enc (o ++ .t a!"i" :: .p a!":h" :: us)) (enc (o ++ .t a!"i" :: us)) := by
    refine ⟨enc o, enc us, ?_, ?_, ?_⟩
    · simp [enc_append, enc_cons, enc1, encloseTranslit, enclosePhoneme, GRAVE, CURLYL, CURLYR]
    · simp [enc_append, enc_cons, enc1, encloseTranslit, GRAVE]
    · rcases hu with rfl | ⟨s, vs, rfl⟩
      · exact .inl rfl
      · exact .inr ⟨_, rfl⟩
  have hst := stD_append (stD1 st_COMMON crM1r) (stD1 st_TRANSLIT_LONG (by simp))
  rw [TXN_TO_PSAF, List.append_assoc, compose_append] at hy ⊢
  obtain ⟨z, hz, hy⟩ := hy
  obtain ⟨w, hw, hd2⟩ := sim_compose dl_head _ _ z hd hz
  obtain ⟨zs, rfl, hzs, _⟩ := hst.1.1 _ h1 z hz
  obtain ⟨ws, rfl, hws, _⟩ := hst.1.1 _ h2 w hw
  refine ⟨_, hw, ?_⟩
  rw [compose_append] at hy ⊢
  obtain ⟨u, hu1, hu2⟩ := hy
  obtain ⟨vs1, g1, _, g3, g4⟩ := tbp_block hzs
  obtain ⟨vs2, k1, _, k3, k4⟩ := tbp_block hws
  have hu123 := print_reject hu2
  obtain rfl := g4 u hu1 hu123
  obtain ⟨a, c, e1, hc, e2⟩ := tbp_dl hd2 hu1
  have hw2 := k4 _ e2 (by
    intro hm
    apply hu123
    rw [e1]
    simp only [List.mem_append, List.mem_cons] at hm ⊢
    tauto)
  obtain ⟨ut, vt, rfl, q1, q2⟩ := enc_boundary (u := a ++ 96 :: a!"i`") (v := c) k1.plain
    (by rw [← hw2]; simp) (by
      rcases hc with h | ⟨v, h⟩
      · exact .inl h
      · exact .inr ⟨60, v, h, rfl⟩)
  have hpl := plain_append.1 k1.plain
  have e3 : enc vs1 = enc (ut ++ .t a!"DEL" :: vt) := by
    rw [e1, enc_append, enc_cons, ← q1, ← q2]
    simp [enc1, encloseTranslit, GRAVE]
  obtain rfl := enc_inj g1.plain (plain_append.2 ⟨hpl.1, plain_cons.2 ⟨by decide, hpl.2⟩⟩) e3
  refine ⟨_, k3, ?_⟩
  obtain ⟨y', _, p2, _⟩ := print_blk m _ k1
  have p3 := print_out k1 p2
  have p4 := print_out g1 hu2
  have : y = y' := by
    rw [p3, p4, List.filter_append, List.filter_append, List.filter_cons_of_pos (by rfl),
      List.flatMap_append, List.flatMap_append, List.flatMap_cons, prTok_DEL, List.nil_append]
  rw [this]
  exact p2

/-! ## The last part of the grammars -/

theorem tri_blk (m : Mode) : Blk (fun ts => OK M1r ts ∧ VK false ts)
    (rewrite (alt Psa.lVOWEL (ph a!"SYL")) (tr a!"I") (some Brh.lVOCALIC) :: TXN_TO_PSAF m) Lower := by
  rintro ts ⟨hk, hv⟩
  have hgen : ∀ vs, Gen .n ts vs → OK M1r ([] ++ vs) := fun vs h => gen_ok h [] hk
  have hkf := hgen _ (kf_gen .n ts)
  obtain ⟨y, hy1, hy2, hy3⟩ := psaf_tail m _ hkf
  have hsame : ∀ vs, Gen .n ts vs → ∀ z, compose (TXN_TO_PSAF m) (enc vs) z ↔ z = y := by
    intro vs hg z
    have h1 := gen_same (S := Same m) (fun _ _ h => h) (fun a b c h k y hy => k y (h y hy))
      (fun o us h1 h2 h3 => same_dl m h1 h2 h3) hg hv [] hgen y hy2
    obtain ⟨y', _, g2, g3⟩ := psaf_tail m _ (hgen vs hg)
    have : y = y' := g3 y h1
    constructor
    · intro hz; rw [g3 z hz, this]
    · rintro rfl; exact h1
  rw [tri_eq, compose_cons]
  have hout : ∀ u, cdrewrite τ2 (cat Brh.lVOCALIC SKIP) (str []) (enc ts) u →
      ∃ us, u = enc us ∧ Gen .n ts us := by
    intro u hu
    obtain ⟨us, h1, h2⟩ := gen_of (os := []) rfl (fun _ h => by cases h) hk.plain (.inl rfl) hv hu.2.2
    exact ⟨us, h1, h2⟩
  refine ⟨y, hy1, ?_, ?_⟩
  · obtain ⟨u, hu⟩ := cdr_total (τ := τ2) (C := C2) (fun _ _ => τ2_ne) [] (enc ts)
    obtain ⟨us, h1, h2⟩ := gen_of (os := []) rfl (fun _ h => by cases h) hk.plain (.inl rfl) hv hu
    rw [List.nil_append] at h1
    subst h1
    exact ⟨_, ⟨enc_over hk.plain, enc_over (hgen us h2).plain, hu⟩, (hsame us h2 y).2 rfl⟩
  · rintro z ⟨u, hu, hz⟩
    obtain ⟨us, rfl, hg⟩ := hout u hu
    exact (hsame us hg z).1 hz

section
attribute [local irreducible] Brh.gr Psa.ph Ltn.tr
theorem st_TR_L : StsL [M1r] [rewrite (phL a!"SYL") (tr a!"S_II") (some Brh.lVOCALIC)] := by nt_stages
end

theorem tri_tail (m : Mode) : Blk (OKV M1r false) (VOCALIC_TR_I ++ TXN_TO_PSAF m) Lower :=
  Blk.after (rs := [rewrite (phL a!"SYL") (tr a!"S_II") (some Brh.lVOCALIC)])
    (stD_okv (stD1 st_TR_L (by simp)) v_TR_L) (tri_blk m)

theorem okv_M1_M1r {b : Bool} (ts : List Tok) (h : OKV M1 b ts) : OKV M1r b ts := ⟨ok_M1_M1r ts h.1, h.2⟩
theorem okv_M1t_M1r {b : Bool} (ts : List Tok) (h : OKV M1t b ts) : OKV M1r b ts := ⟨ok_M1t_M1r ts h.1, h.2⟩

theorem ta_psaf_blk (m : Mode) : Blk (OKV M1t true) (Ta.txn ++ (VOCALIC_TR_I ++ TXN_TO_PSAF m)) Lower :=
  Blk.after ta_v ((tri_tail m).mono okv_M1t_M1r)

theorem ml_psaf_blk (m : Mode) : Blk (OKV M1 true) (Ml.txn ++ (VOCALIC_TR_I ++ TXN_TO_PSAF m)) Lower :=
  ml_blkv ((tri_tail m).mono okv_M1_M1r)

end Nisaba.NT
