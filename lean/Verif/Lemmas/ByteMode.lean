import Verif.Model.ByteMode
import Verif.Lemmas.Utf8
/-! Rewriting commutes with a self-synchronizing encoding. -/
namespace Nisaba

/-- Characters that have an encoding. -/
def encodable (c : Nat) : Prop := 0x110000 ≤ c ∨ Utf8.isScalar c = true

/-- Labels that only occur after the first one of a character. -/
def tailLabel (b : Nat) : Prop := 128 ≤ b ∧ b < 192

theorem encChar_shape {c : Nat} (_ : encodable c) :
    ∃ h t, encChar c = h :: t ∧ ¬ tailLabel h ∧ ∀ x ∈ t, tailLabel x := by
  unfold encChar
  split
  · exact ⟨c, [], rfl, by unfold tailLabel; omega, by simp⟩
  · rename_i hg
    unfold Utf8.encodeRaw tailLabel
    split
    · exact ⟨c, [], rfl, by omega, by simp⟩
    · split
      · exact ⟨_, _, rfl, by omega, by simp; omega⟩
      · split
        · exact ⟨_, _, rfl, by omega, by simp; omega⟩
        · exact ⟨_, _, rfl, by omega, by simp; omega⟩

theorem encChar_lt {c : Nat} (hg : ¬ 0x110000 ≤ c) : ∀ b ∈ encChar c, b < 256 := by
  unfold encChar
  rw [if_neg hg]
  unfold Utf8.encodeRaw
  intro b hb
  split at hb
  · simp at hb; omega
  · split at hb
    · simp at hb; omega
    · split at hb
      · simp at hb; omega
      · simp at hb; omega

theorem encChar_zero {c : Nat} (h : 0 ∈ encChar c) : c = 0 := by
  unfold encChar at h
  split at h
  · simp at h; omega
  · unfold Utf8.encodeRaw at h
    split at h
    · simp at h; omega
    · split at h
      · simp at h; omega
      · split at h
        · simp at h; omega
        · simp at h; omega

theorem encChar_inj {a b : Nat} (ha : encodable a) (hb : encodable b) {x y : Str}
    (h : encChar a ++ x = encChar b ++ y) : a = b ∧ x = y := by
  by_cases ga : 0x110000 ≤ a
  · have ea : encChar a = [a] := if_pos ga
    by_cases gb : 0x110000 ≤ b
    · rw [ea, show encChar b = [b] from if_pos gb] at h
      simpa using h
    · obtain ⟨h0, t, e, _⟩ := encChar_shape hb
      have := encChar_lt gb h0 (by rw [e]; simp)
      rw [ea, e] at h; simp at h; omega
  · by_cases gb : 0x110000 ≤ b
    · have eb : encChar b = [b] := if_pos gb
      obtain ⟨h0, t, e, _⟩ := encChar_shape ha
      have := encChar_lt ga h0 (by rw [e]; simp)
      rw [eb, e] at h; simp at h; omega
    · have sa : Utf8.isScalar a = true := by rcases ha with h | h; exact absurd h ga; exact h
      have sb : Utf8.isScalar b = true := by rcases hb with h | h; exact absurd h gb; exact h
      rw [show encChar a = Utf8.encodeRaw a from if_neg ga,
        show encChar b = Utf8.encodeRaw b from if_neg gb] at h
      have h1 := Utf8.decodeNext_encodeRaw a sa x
      rw [h, Utf8.decodeNext_encodeRaw b sb y] at h1
      simp only [Option.some.injEq, Prod.mk.injEq] at h1
      exact ⟨h1.1.symm, h1.2.symm⟩

theorem encText_nil : encText [] = [] := rfl
theorem encText_cons (c : Nat) (s : Str) : encText (c :: s) = encChar c ++ encText s := rfl
theorem encText_append (s t : Str) : encText (s ++ t) = encText s ++ encText t := by
  simp [encText]

theorem encText_eq_nil {s : Str} (hs : Over encodable s) (h : encText s = []) : s = [] := by
  cases s with
  | nil => rfl
  | cons c s =>
    obtain ⟨b, t, e, _⟩ := encChar_shape (hs c (by simp))
    rw [encText_cons, e] at h; cases h

/-- Matching a prefix of bytes is matching a prefix of characters. -/
theorem encText_prefix {l s : Str} (hl : Over encodable l) (hs : Over encodable s) {x : Str}
    (h : encText s = encText l ++ x) : ∃ s', s = l ++ s' ∧ x = encText s' := by
  induction l generalizing s with
  | nil => exact ⟨s, rfl, h.symm⟩
  | cons a l ih =>
    cases s with
    | nil =>
      obtain ⟨b, t, e, _⟩ := encChar_shape (hl a (by simp))
      rw [encText_cons, e] at h; cases h
    | cons b s =>
      rw [encText_cons, encText_cons, List.append_assoc] at h
      obtain ⟨rfl, h'⟩ := encChar_inj (hs b (by simp)) (hl a (by simp)) h
      obtain ⟨s', rfl, rfl⟩ := ih (fun c hc => hl c (List.mem_cons_of_mem _ hc))
        (fun c hc => hs c (List.mem_cons_of_mem _ hc)) h'
      exact ⟨s', rfl, rfl⟩

theorem encText_inj {s t : Str} (hs : Over encodable s) (ht : Over encodable t)
    (h : encText s = encText t) : s = t := by
  obtain ⟨s', rfl, e⟩ := encText_prefix ht hs (x := []) (by simpa using h)
  have : s' = [] := encText_eq_nil (fun c hc => hs c (List.mem_append_right _ hc)) e.symm
  simp [this]

/-- A label that is not a tail label starts a character. -/
theorem encText_sync {s : Str} (hs : Over encodable s) {p q : Str} {b : Nat}
    (h : encText s = p ++ b :: q) (hb : ¬ tailLabel b) :
    ∃ s₁ s₂, s = s₁ ++ s₂ ∧ p = encText s₁ ∧ b :: q = encText s₂ := by
  induction s generalizing p with
  | nil => simp [encText] at h
  | cons c s ih =>
    obtain ⟨h0, t, e, _, ht⟩ := encChar_shape (hs c (by simp))
    cases p with
    | nil => exact ⟨[], c :: s, rfl, rfl, h.symm⟩
    | cons x p =>
      rw [encText_cons, e] at h
      simp only [List.cons_append, List.cons.injEq] at h
      obtain ⟨rfl, h⟩ := h
      rcases List.append_eq_append_iff.1 h with ⟨a', h1, h2⟩ | ⟨c', h1, h2⟩
      · obtain ⟨s₁, s₂, rfl, e1, e2⟩ := ih (fun c hc => hs c (List.mem_cons_of_mem _ hc)) h2
        refine ⟨c :: s₁, s₂, rfl, ?_, e2⟩
        rw [encText_cons, e, h1, e1]; rfl
      · cases c' with
        | nil =>
          simp only [List.append_nil, List.nil_append] at h1 h2
          subst h1
          exact ⟨[c], s, rfl, by rw [encText_cons, e]; simp [encText], h2⟩
        | cons y c' =>
          simp only [List.cons_append, List.cons.injEq] at h2
          exact absurd (ht b (by rw [h1, h2.1]; simp)) hb

/-- Matching a suffix of bytes is matching a suffix of characters. -/
theorem encText_suffix {l s : Str} (hl : Over encodable l) (hs : Over encodable s) {p : Str}
    (h : encText s = p ++ encText l) : ∃ s', s = s' ++ l ∧ p = encText s' := by
  cases l with
  | nil => exact ⟨s, by simp, by simpa [encText] using h.symm⟩
  | cons a l =>
    obtain ⟨b, t, e, hb, _⟩ := encChar_shape (hl a (by simp))
    have h' := h
    rw [encText_cons, e] at h'
    obtain ⟨s₁, s₂, rfl, e1, e2⟩ := encText_sync hs (q := t ++ encText l) (by simpa using h') hb
    refine ⟨s₁, ?_, e1⟩
    congr 1
    apply encText_inj (fun c hc => hs c (List.mem_append_right _ hc)) hl
    rw [← e2, encText_cons, e]; rfl

/-! ### One rewrite -/

/-- Relation between byte strings given by a relation between texts. -/
def encRel (τ : Rel) : Rel := fun x y => ∃ l r, x = encText l ∧ y = encText r ∧ τ l r

/-- `C'` is the condition `C` on the bytes of the texts. -/
def CtxLifts (C C' : Ctx) : Prop :=
  (∀ s, Over encodable s → (C'.left (encText s) ↔ C.left s)) ∧
  (∀ s, Over encodable s → (C'.right (encText s) ↔ C.right s))

/-- The strings of the rules have encodings, and no left-hand side is empty. -/
def GoodRel (τ : Rel) : Prop := ∀ l r, τ l r → Over encodable l ∧ Over encodable r ∧ l ≠ []

variable {τ : Rel} {C C' : Ctx}

theorem applicable_enc (hτ : GoodRel τ) (hC : CtxLifts C C') {out rest : Str}
    (ho : Over encodable out) (hr : Over encodable rest) {x y z : Str} :
    Applicable (encRel τ) C' (encText out) (encText rest) x y z ↔
      ∃ l r rest', x = encText l ∧ y = encText r ∧ z = encText rest' ∧
        Applicable τ C out rest l r rest' := by
  constructor
  · rintro ⟨⟨l, r, rfl, rfl, h⟩, e, hl, hrr⟩
    obtain ⟨rest', rfl, rfl⟩ := encText_prefix (hτ l r h).1 hr e
    exact ⟨l, r, rest', rfl, rfl, rfl, h, rfl, (hC.1 _ ho).1 hl,
      (hC.2 _ fun c hc => hr c (List.mem_append_right _ hc)).1 hrr⟩
  · rintro ⟨l, r, rest', rfl, rfl, rfl, h, rfl, hl, hrr⟩
    exact ⟨⟨l, r, rfl, rfl, h⟩, encText_append .., (hC.1 _ ho).2 hl,
      (hC.2 _ fun c hc => hr c (List.mem_append_right _ hc)).2 hrr⟩

/-- No rule is applicable inside a character. -/
theorem not_applicable_tail (hτ : GoodRel τ) {out rest : Str} {b : Nat} (hb : tailLabel b)
    (x y z : Str) : ¬ Applicable (encRel τ) C' out (b :: rest) x y z := by
  rintro ⟨⟨l, r, rfl, rfl, h⟩, e, _⟩
  obtain ⟨hl, _, hne⟩ := hτ l r h
  cases l with
  | nil => exact hne rfl
  | cons a l =>
    obtain ⟨b', t, e', hb', _⟩ := encChar_shape (hl a (by simp))
    rw [encText_cons, e'] at e
    simp only [List.cons_append, List.cons.injEq] at e
    exact hb' (e.1 ▸ hb)

theorem cd_copy_tails (hτ : GoodRel τ) (ts : Str) (hts : ∀ x ∈ ts, tailLabel x) (out rest fin : Str) :
    CDRewrite (encRel τ) C' out (ts ++ rest) fin ↔
      CDRewrite (encRel τ) C' (out ++ ts) rest fin := by
  induction ts generalizing out with
  | nil => simp
  | cons b ts ih =>
    have hb := hts b (by simp)
    have ih := ih (fun x hx => hts x (List.mem_cons_of_mem _ hx)) (out ++ [b])
    rw [List.append_assoc, List.singleton_append] at ih
    rw [← ih]
    constructor
    · intro h
      rw [List.cons_append] at h
      generalize hin : b :: (ts ++ rest) = inp at h
      cases h with
      | done => cases hin
      | apply ha k => rw [← hin] at ha; exact absurd ha (not_applicable_tail hτ hb _ _ _)
      | copy hn k => cases hin; exact k
    · intro h
      exact .copy (fun l r z => not_applicable_tail hτ hb l r z) h

theorem cd_enc (hτ : GoodRel τ) (hC : CtxLifts C C') {out s fin : Str}
    (ho : Over encodable out) (hs : Over encodable s) (h : CDRewrite τ C out s fin) :
    Over encodable fin ∧ CDRewrite (encRel τ) C' (encText out) (encText s) (encText fin) := by
  induction h with
  | done out => exact ⟨ho, .done _⟩
  | @apply out rest l r rest' fin ha k ih =>
    have hlr := hτ l r ha.1
    have hr' : Over encodable rest' := fun c hc => hs c (by rw [ha.2.1]; exact List.mem_append_right _ hc)
    obtain ⟨h1, h2⟩ := ih (fun c hc => (List.mem_append.1 hc).elim (ho c) (hlr.2.1 c)) hr'
    refine ⟨h1, ?_⟩
    rw [encText_append] at h2
    exact .apply ((applicable_enc hτ hC ho hs).2 ⟨l, r, rest', rfl, rfl, rfl, ha⟩) h2
  | @copy out rest fin c hn k ih =>
    have hc : encodable c := hs c (by simp)
    obtain ⟨h1, h2⟩ := ih (fun x hx => (List.mem_append.1 hx).elim (ho x) (by simp; rintro rfl; exact hc))
      (fun x hx => hs x (List.mem_cons_of_mem _ hx))
    refine ⟨h1, ?_⟩
    obtain ⟨b, t, e, hb, ht⟩ := encChar_shape hc
    have hno : ∀ x y z, ¬ Applicable (encRel τ) C' (encText out) (b :: (t ++ encText rest)) x y z := by
      intro x y z ha
      have : encText (c :: rest) = b :: (t ++ encText rest) := by rw [encText_cons, e]; rfl
      rw [← this] at ha
      obtain ⟨l, r, rest', _, _, _, ha⟩ := (applicable_enc hτ hC ho hs).1 ha
      exact hn l r rest' ha
    rw [encText_cons, e]
    refine .copy hno ((cd_copy_tails hτ t ht _ _ _).2 ?_)
    rw [encText_append, show encText [c] = b :: t by simp [encText, e]] at h2
    simpa using h2

theorem cd_dec (hτ : GoodRel τ) (hC : CtxLifts C C') {out s x : Str}
    (ho : Over encodable out) (hs : Over encodable s)
    (h : CDRewrite (encRel τ) C' (encText out) (encText s) x) :
    ∃ fin, x = encText fin ∧ CDRewrite τ C out s fin := by
  generalize hn : s.length = n
  induction n using Nat.strongRecOn generalizing s out with
  | _ n ih =>
    generalize ha : encText out = a at h
    generalize hb : encText s = b at h
    cases h with
    | done =>
      have := encText_eq_nil hs hb; subst this
      exact ⟨out, ha.symm, .done _⟩
    | @apply _ _ l r rest' _ hap k =>
      rw [← ha, ← hb] at hap
      obtain ⟨l', r', z, rfl, rfl, rfl, hap'⟩ := (applicable_enc hτ hC ho hs).1 hap
      obtain ⟨hl, hr, hne⟩ := hτ l' r' hap'.1
      rw [← ha, ← encText_append] at k
      have hlen : z.length < n := by
        have := congrArg List.length hap'.2.1
        have hpos : 0 < l'.length := List.length_pos_iff.2 hne
        rw [List.length_append] at this; omega
      obtain ⟨fin, rfl, hk⟩ := ih _ hlen (fun c hc => (List.mem_append.1 hc).elim (ho c) (hr c))
        (fun c hc => hs c (by rw [hap'.2.1]; exact List.mem_append_right _ hc)) k rfl
      exact ⟨fin, rfl, .apply hap' hk⟩
    | @copy _ rest _ b hno k =>
      cases s with
      | nil => simp [encText] at hb
      | cons c s =>
        have hc : encodable c := hs c (by simp)
        have hs' : Over encodable s := fun x hx => hs x (List.mem_cons_of_mem _ hx)
        obtain ⟨b', t, e, hb', ht⟩ := encChar_shape hc
        have hb2 := hb
        rw [encText_cons, e, List.cons_append, List.cons.injEq] at hb2
        obtain ⟨rfl, rfl⟩ := hb2
        rw [cd_copy_tails hτ t ht, ← ha] at k
        have e2 : encText out ++ [b'] ++ t = encText (out ++ [c]) := by
          rw [encText_append, show encText [c] = b' :: t by simp [encText, e]]; simp
        rw [e2] at k
        obtain ⟨fin, rfl, hk⟩ := ih _ (by simp at hn; omega)
          (fun x hx => (List.mem_append.1 hx).elim (ho x) (by simp; rintro rfl; exact hc)) hs' k rfl
        refine ⟨fin, rfl, .copy (fun l r z hap => ?_) hk⟩
        rw [← hb, ← ha] at hno
        exact hno _ _ _ ((applicable_enc hτ hC ho hs).2 ⟨l, r, z, rfl, rfl, rfl, hap⟩)

/-! ### Relations -/

/-- `Rb` does to the labels of texts over `V` what `R` does to the texts. -/
def Lifts (V : Nat → Prop) (R Rb : Rel) : Prop :=
  ∀ s b, Over V s → (Rb (encText s) b ↔ ∃ t, Over V t ∧ b = encText t ∧ R s t)

theorem Lifts.comp {V : Nat → Prop} {R S Rb Sb : Rel} (h : Lifts V R Rb) (k : Lifts V S Sb)
    (hR : ∀ s t, Over V s → R s t → Over V t) :
    Lifts V (Rel.comp R S) (Rel.comp Rb Sb) := by
  intro s b hs
  constructor
  · rintro ⟨y, h1, h2⟩
    obtain ⟨t, ht, rfl, hR⟩ := (h s y hs).1 h1
    obtain ⟨u, hu, rfl, hS⟩ := (k t b ht).1 h2
    exact ⟨u, hu, rfl, t, hR, hS⟩
  · rintro ⟨u, hu, rfl, t, h1, h2⟩
    have ht := hR s t hs h1
    exact ⟨encText t, (h s _ hs).2 ⟨t, ht, rfl, h1⟩, (k t _ ht).2 ⟨u, hu, rfl, h2⟩⟩

/-- The alphabets `σ` (characters) and `σb` (labels) correspond. -/
def SigmaLifts (σ σb : Nat → Prop) : Prop :=
  (∀ c, σ c → encodable c) ∧ ∀ c, encodable c → (Over σb (encChar c) ↔ σ c)

theorem over_encText {σ σb : Nat → Prop} (h : SigmaLifts σ σb) {s : Str} (hs : Over encodable s) :
    Over σb (encText s) ↔ Over σ s := by
  simp only [Over, encText, List.mem_flatMap] at *
  constructor
  · intro k c hc
    exact (h.2 c (hs c hc)).1 fun b hb => k b ⟨c, hc, hb⟩
  · rintro k b ⟨c, hc, hb⟩
    exact (h.2 c (hs c hc)).2 (k c hc) b hb

theorem rewrite_lifts (hτ : GoodRel τ) (hC : CtxLifts C C') {σ σb V : Nat → Prop}
    (hV : ∀ c, V c → encodable c) (hσV : ∀ c, σ c → V c)
    (hσ : SigmaLifts σ σb) : Lifts V (Rewrite τ σ C) (Rewrite (encRel τ) σb C') := by
  intro s b hs
  have hse : Over encodable s := fun c hc => hV c (hs c hc)
  constructor
  · rintro ⟨h1, h2, h3⟩
    obtain ⟨t, rfl, ht⟩ := cd_dec hτ hC (out := []) (by intro c hc; simp at hc) hse h3
    have hte := (cd_enc hτ hC (by intro c hc; simp at hc) hse ht).1
    have hto := (over_encText hσ hte).1 h2
    exact ⟨t, fun c hc => hσV c (hto c hc), rfl, (over_encText hσ hse).1 h1, hto, ht⟩
  · rintro ⟨t, ht, rfl, h1, h2, h3⟩
    have hte : Over encodable t := fun c hc => hV c (ht c hc)
    exact ⟨(over_encText hσ hse).2 h1, (over_encText hσ hte).2 h2,
      (cd_enc hτ hC (out := []) (by intro c hc; simp at hc) hse h3).2⟩

theorem ctxLifts_free : CtxLifts Ctx.free Ctx.free := ⟨fun _ _ => Iff.rfl, fun _ _ => Iff.rfl⟩

theorem endsIn_enc {rows : List Rule} (hr : ∀ p ∈ rows, Over encodable p.1) {s : Str}
    (hs : Over encodable s) :
    endsIn (inputLang (encRules rows)) (encText s) ↔ endsIn (inputLang rows) s := by
  constructor
  · rintro ⟨p, x, e, y, hy⟩
    obtain ⟨q, hq, hqe⟩ := List.mem_map.1 hy
    simp only [Prod.mk.injEq] at hqe
    rw [← hqe.1] at e
    obtain ⟨s', rfl, _⟩ := encText_suffix (hr q hq) hs e
    exact ⟨s', q.1, rfl, q.2, hq⟩
  · rintro ⟨p, x, rfl, y, hy⟩
    exact ⟨encText p, encText x, encText_append .., encText y, List.mem_map.2 ⟨_, hy, rfl⟩⟩

theorem startsIn_enc {rows : List Rule} (hr : ∀ p ∈ rows, Over encodable p.1) {s : Str}
    (hs : Over encodable s) :
    startsIn (inputLang (encRules rows)) (encText s) ↔ startsIn (inputLang rows) s := by
  constructor
  · rintro ⟨x, p, e, y, hy⟩
    obtain ⟨q, hq, hqe⟩ := List.mem_map.1 hy
    simp only [Prod.mk.injEq] at hqe
    rw [← hqe.1] at e
    obtain ⟨s', rfl, _⟩ := encText_prefix (hr q hq) hs e
    exact ⟨q.1, s', rfl, q.2, hq⟩
  · rintro ⟨x, p, rfl, y, hy⟩
    exact ⟨encText x, encText p, encText_append .., encText y, List.mem_map.2 ⟨_, hy, rfl⟩⟩

theorem encRel_stringMap (rows : List Rule) :
    Rel.stringMap (encRules rows) = encRel (Rel.stringMap rows) := by
  funext x y
  simp only [Rel.stringMap, encRules, encRel, List.mem_map, Prod.mk.injEq, eq_iff_iff]
  constructor
  · rintro ⟨p, hp, rfl, rfl⟩; exact ⟨p.1, p.2, rfl, rfl, hp⟩
  · rintro ⟨l, r, rfl, rfl, h⟩; exact ⟨(l, r), h, rfl, rfl⟩

theorem encRel_inv (τ : Rel) : Rel.inv (encRel τ) = encRel (Rel.inv τ) := by
  funext x y
  simp only [Rel.inv, encRel, eq_iff_iff]
  constructor
  · rintro ⟨l, r, rfl, rfl, h⟩; exact ⟨r, l, rfl, rfl, h⟩
  · rintro ⟨l, r, rfl, rfl, h⟩; exact ⟨r, l, rfl, rfl, h⟩

/-- The byte alphabet. -/
theorem sigmaLifts_text : SigmaLifts textChar byteSigma := by
  refine ⟨fun c h => Or.inr h.1, fun c hc => ?_⟩
  unfold byteSigma textChar Over
  constructor
  · intro h
    have hg : ¬ 0x110000 ≤ c := by
      intro hg
      have := (h c (by rw [show encChar c = [c] from if_pos hg]; simp)).2
      omega
    refine ⟨hc.resolve_left hg, ?_⟩
    rintro rfl
    exact absurd (h 0 (by decide)).1 (by omega)
  · rintro ⟨hs, h0⟩ b hb
    have hg : ¬ 0x110000 ≤ c := by have := (Utf8.isScalar_iff c).1 hs; omega
    have := encChar_lt hg b hb
    have : b ≠ 0 := by rintro rfl; exact h0 (encChar_zero hb)
    omega

/-- The alphabet with generated symbols. -/
theorem sigmaLifts_intermediate :
    SigmaLifts (intermediateSigma textChar) (intermediateSigma byteSigma) := by
  refine ⟨fun c h => h.imp id (·.1), fun c hc => ?_⟩
  by_cases hg : 0x110000 ≤ c
  · rw [show encChar c = [c] from if_pos hg]
    simp only [Over, List.mem_singleton, forall_eq, intermediateSigma, generated, hg, true_or]
  · have : ¬ generated c := hg
    constructor
    · intro h
      refine Or.inr ((sigmaLifts_text.2 c hc).1 fun b hb => ?_)
      have := encChar_lt hg b hb
      rcases h b hb with h | h
      · unfold generated at h; omega
      · exact h
    · rintro (h | h)
      · exact absurd h this
      · exact fun b hb => Or.inr ((sigmaLifts_text.2 c hc).2 h b hb)

theorem lifts_compose {V : Nat → Prop} {D Db : Rel} (hD : Lifts V D Db) :
    ∀ (Rs Rbs : List Rel), Rs.length = Rbs.length →
      (∀ p ∈ Rs.zip Rbs, Lifts V p.1 p.2 ∧ ∀ s t, Over V s → p.1 s t → Over V t) →
      Lifts V (composeRels D Rs) (composeRels Db Rbs)
  | [], [], _, _ => hD
  | [a], [a'], _, h => (h (a, a') (by simp)).1
  | a :: b :: Rs, a' :: b' :: Rbs, hl, h => by
    have ih := lifts_compose hD (b :: Rs) (b' :: Rbs) (by simpa using hl)
      (fun p hp => h p (by simp only [List.zip_cons_cons] at hp ⊢; exact List.mem_cons_of_mem _ hp))
    have h0 := h (a, a') (by simp)
    exact h0.1.comp ih h0.2
  | [], _ :: _, hl, _ => by simp at hl
  | _ :: _, [], hl, _ => by simp at hl
  | [_], _ :: _ :: _, hl, _ => by simp at hl
  | _ :: _ :: _, [_], hl, _ => by simp at hl

theorem lifts_sigmaStar {σ σb V : Nat → Prop} (hV : ∀ c, V c → encodable c)
    (h : SigmaLifts σ σb) : Lifts V (Rel.sigmaStar σ) (Rel.sigmaStar σb) := by
  intro s b hs
  have hse : Over encodable s := fun c hc => hV c (hs c hc)
  constructor
  · rintro ⟨rfl, ho⟩
    have := (over_encText h hse).1 ho
    exact ⟨s, hs, rfl, rfl, this⟩
  · rintro ⟨t, _, rfl, rfl, ho⟩
    exact ⟨rfl, (over_encText h hse).2 ho⟩

theorem rewrite_over {τ : Rel} {σ : Nat → Prop} {C : Ctx} {s t : Str} (h : Rewrite τ σ C s t) :
    Over σ t := h.2.1

end Nisaba
