import Verif.Lemmas.NtFst
/-!
# Strings as sequences of enclosed symbols

A string of the grammars is the encoding of a sequence of graphemes `<g>`, phonemes `{p}`, translits
`` `t` `` and signs `=`.  Rewrite rules whose inputs are such sequences act on sequences.
-/
namespace Nisaba.NT

inductive Tok
  | g (s : Str)
  | eq
  | p (s : Str)
  | t (s : Str)
deriving DecidableEq, Repr

/-- Encoding of a symbol. -/
def enc1 : Tok → Str
  | .g s => encloseGrapheme s
  | .eq => [EQ]
  | .p s => enclosePhoneme s
  | .t s => encloseTranslit s

/-- Encoding of a sequence. -/
def enc (ts : List Tok) : Str := ts.flatMap enc1

theorem enc_nil : enc [] = [] := rfl
theorem enc_cons (a : Tok) (ts : List Tok) : enc (a :: ts) = enc1 a ++ enc ts := rfl
theorem enc_append (xs ys : List Tok) : enc (xs ++ ys) = enc xs ++ enc ys := by
  simp [enc]

/-- Characters of names. -/
def nameChar (c : Nat) : Bool :=
  (Nat.ble 65 c && Nat.ble c 90) || (Nat.ble 97 c && Nat.ble c 122) ||
    (Nat.beq c 95 || Nat.beq c 43 || Nat.beq c 46 || Nat.beq c 42 || Nat.beq c 45 ||
      Nat.beq c 38 || Nat.beq c 33 || Nat.beq c 58)

theorem nameChar_sym {c : Nat} (h : nameChar c = true) : symChar c := by
  simp only [nameChar, Bool.or_eq_true, Bool.and_eq_true, Nat.ble_eq, Nat.beq_eq] at h
  unfold symChar
  simp only [List.mem_cons, List.not_mem_nil, or_false]
  omega

theorem nameChar_lt {c : Nat} (h : nameChar c = true) :
    0 < c ∧ c < 128 ∧ c ≠ 60 ∧ c ≠ 61 ∧ c ≠ 62 ∧ c ≠ 96 ∧ c ≠ 123 ∧ c ≠ 125 := by
  simp only [nameChar, Bool.or_eq_true, Bool.and_eq_true, Nat.ble_eq, Nat.beq_eq] at h
  omega

/-- The name of a symbol. -/
def Tok.name : Tok → Str
  | .g s => s
  | .eq => []
  | .p s => s
  | .t s => s

/-- The name is made of name characters. -/
def Tok.plain (a : Tok) : Prop := ∀ c ∈ a.name, nameChar c = true

instance (a : Tok) : Decidable a.plain := by unfold Tok.plain; infer_instance

theorem split_unique {d : Nat} {s s' x y : Str} (h : s ++ d :: x = s' ++ d :: y)
    (hs : d ∉ s) (hs' : d ∉ s') : s = s' ∧ x = y := by
  induction s generalizing s' with
  | nil =>
    cases s' with
    | nil => injection h with _ h; exact ⟨rfl, h⟩
    | cons b s' => injection h with h1 _; exact absurd (by simp [h1]) hs'
  | cons a s ih =>
    cases s' with
    | nil => injection h with h1 _; exact absurd (by simp [h1]) hs
    | cons b s' =>
      injection h with h1 h2
      obtain ⟨h3, h4⟩ := ih h2 (fun h => hs (by simp [h])) (fun h => hs' (by simp [h]))
      exact ⟨by rw [h1, h3], h4⟩

theorem Tok.plain_not {a : Tok} (h : a.plain) {d : Nat} (hd : nameChar d = false) : d ∉ a.name := by
  intro hm
  rw [h d hm] at hd
  cases hd

theorem enc1_ne (a : Tok) : enc1 a ≠ [] := by cases a <;> simp [enc1, encloseGrapheme,
  enclosePhoneme, encloseTranslit]

/-- The first symbol of a string is unique. -/
theorem enc1_inj {a b : Tok} (ha : a.plain) (hb : b.plain) {x y : Str}
    (h : enc1 a ++ x = enc1 b ++ y) : a = b ∧ x = y := by
  cases a <;> cases b <;>
    simp only [enc1, encloseGrapheme, enclosePhoneme, encloseTranslit, LT, GT, CURLYL, CURLYR, EQ,
      GRAVE, List.cons_append, List.append_assoc, List.nil_append, List.cons.injEq, true_and,
      reduceCtorEq, false_and] at h ⊢ <;>
    first
    | exact absurd h.1 (by decide)
    | exact h
    | (obtain ⟨rfl, rfl⟩ := split_unique h (Tok.plain_not ha rfl) (Tok.plain_not hb rfl)
       exact ⟨rfl, rfl⟩)

/-- All symbols are plain. -/
def Plain (ts : List Tok) : Prop := ∀ a ∈ ts, a.plain

theorem plain_cons {a : Tok} {ts : List Tok} : Plain (a :: ts) ↔ a.plain ∧ Plain ts := by
  simp [Plain]

theorem plain_append {xs ys : List Tok} : Plain (xs ++ ys) ↔ Plain xs ∧ Plain ys := by
  simp only [Plain, List.mem_append]
  constructor
  · intro h; exact ⟨fun a ha => h a (.inl ha), fun a ha => h a (.inr ha)⟩
  · rintro ⟨h, k⟩ a (ha | ha); exacts [h a ha, k a ha]

/-- An encoded prefix of an encoding is the encoding of a prefix. -/
theorem enc_prefix {ts lt : List Tok} {v : Str} (hts : Plain ts) (hlt : Plain lt)
    (h : enc ts = enc lt ++ v) : ∃ vt, ts = lt ++ vt ∧ v = enc vt := by
  induction lt generalizing ts with
  | nil => exact ⟨ts, rfl, h.symm⟩
  | cons a lt ih =>
    cases ts with
    | nil =>
      have := congrArg List.length h
      have := List.length_pos_iff.2 (enc1_ne a)
      simp [enc_cons, enc_nil] at *
      omega
    | cons b ts =>
      rw [plain_cons] at hts hlt
      rw [enc_cons, enc_cons, List.append_assoc] at h
      obtain ⟨rfl, h'⟩ := enc1_inj hts.1 hlt.1 h
      obtain ⟨vt, rfl, rfl⟩ := ih hts.2 hlt.2 h'
      exact ⟨vt, rfl, rfl⟩

theorem enc_inj {ts us : List Tok} (hts : Plain ts) (hus : Plain us) (h : enc ts = enc us) :
    ts = us := by
  obtain ⟨vt, rfl, h2⟩ := enc_prefix (v := []) hts hus (by simpa using h)
  cases vt with
  | nil => simp
  | cons a vt =>
    have := congrArg List.length h2
    have := List.length_pos_iff.2 (enc1_ne a)
    simp [enc_cons] at *
    omega

/-- The characters that start a symbol other than a translit. -/
def opener (c : Nat) : Bool := Nat.beq c 60 || Nat.beq c 123 || Nat.beq c 61

theorem enc1_tail_not_opener {a : Tok} (ha : a.plain) {u w : Str} (hu : u ≠ [])
    (h : enc1 a = u ++ w) : ∀ c ∈ w, opener c = false := by
  have key : ∀ c ∈ (enc1 a).tail, opener c = false := by
    intro c hc
    have hn : c ∈ a.name → opener c = false := by
      intro hm
      have := nameChar_lt (ha c hm)
      simp only [opener, Bool.or_eq_false_iff]
      refine ⟨⟨?_, ?_⟩, ?_⟩ <;> (apply Bool.eq_false_iff.2; rw [ne_eq, Nat.beq_eq]; omega)
    cases a <;> simp [enc1, encloseGrapheme, enclosePhoneme, encloseTranslit] at hc <;>
      (rcases hc with hc | rfl; exact hn hc; rfl)
  intro c hc
  apply key
  rw [h]
  cases u with
  | nil => exact absurd rfl hu
  | cons b u => simp [hc]

/-- An encoded factor that starts with a symbol other than a translit is a factor of the sequence. -/
theorem enc_factor {ts lt : List Tok} {a : Tok} {u v : Str} (hts : Plain ts) (hlt : Plain (a :: lt))
    (ha : ∀ s, a ≠ .t s) (h : enc ts = u ++ enc (a :: lt) ++ v) :
    ∃ ut vt, ts = ut ++ (a :: lt) ++ vt ∧ u = enc ut ∧ v = enc vt := by
  induction ts generalizing u with
  | nil =>
    have := congrArg List.length h
    have := List.length_pos_iff.2 (enc1_ne a)
    simp [enc_cons, enc_nil] at *
    omega
  | cons b ts ih =>
    by_cases hu : u = []
    · subst hu
      rw [List.nil_append] at h
      obtain ⟨vt, h1, h2⟩ := enc_prefix hts hlt h
      exact ⟨[], vt, by simpa using h1, rfl, h2⟩
    · rw [plain_cons] at hts
      rw [enc_cons, List.append_assoc] at h
      have hcase : (∃ u', u = enc1 b ++ u' ∧ enc ts = u' ++ (enc (a :: lt) ++ v)) := by
        rcases List.append_eq_append_iff.1 h with ⟨w, h1, h2⟩ | ⟨w, h1, h2⟩
        · exact ⟨w, h1, h2⟩
        · cases w with
          | nil =>
            exact ⟨[], by simpa using h1.symm, by simpa using h2.symm⟩
          | cons d w =>
            exfalso
            have hop : ∃ c, opener c = true ∧ (enc (a :: lt) ++ v).head? = some c := by
              cases a with
              | g s => exact ⟨60, rfl, rfl⟩
              | eq => exact ⟨61, rfl, rfl⟩
              | p s => exact ⟨123, rfl, rfl⟩
              | t s => exact absurd rfl (ha s)
            obtain ⟨c, hc, hh⟩ := hop
            rw [h2] at hh
            injection hh with hh
            subst hh
            rw [enc1_tail_not_opener hts.1 hu h1 d (by simp)] at hc
            cases hc
      obtain ⟨u', rfl, h2⟩ := hcase
      obtain ⟨ut, vt, rfl, rfl, rfl⟩ := ih hts.2 (by rw [h2, List.append_assoc])
      exact ⟨b :: ut, vt, rfl, rfl, rfl⟩

/-! ## Rewriting sequences -/

instance (c : Nat) : Decidable (byteLabel c) := by unfold byteLabel; infer_instance

/-- Labels of an encoding are ASCII. -/
theorem enc_over {ts : List Tok} (h : Plain ts) : Over byteLabel (enc ts) := by
  intro c hc
  simp only [enc, List.mem_flatMap] at hc
  obtain ⟨a, ha, hc⟩ := hc
  have hn : c ∈ a.name → byteLabel c := fun hm => by
    have := nameChar_lt (h a ha c hm)
    unfold byteLabel
    omega
  cases a <;>
    simp [enc1, encloseGrapheme, enclosePhoneme, encloseTranslit, LT, GT, CURLYL, CURLYR, EQ,
      GRAVE] at hc
  · rcases hc with rfl | hc | rfl; exacts [by decide, hn hc, by decide]
  · subst hc; decide
  · rcases hc with rfl | hc | rfl; exacts [by decide, hn hc, by decide]
  · rcases hc with rfl | hc | rfl; exacts [by decide, hn hc, by decide]

/-- A relation takes sequences with `P` only to sequences with `Q` and keeps a projection. -/
def Closed {γ : Type} (f : Tok → List γ) (P Q : List Tok → Prop) (R : Rel) : Prop :=
  ∀ ts, P ts → ∀ z, R (enc ts) z → ∃ us, z = enc us ∧ Q us ∧ us.flatMap f = ts.flatMap f

/-- A relation has an output for every sequence with `P`. -/
def Tot (P : List Tok → Prop) (R : Rel) : Prop := ∀ ts, P ts → ∃ z, R (enc ts) z

/-- What is needed of a rule. -/
def RuleOk {γ : Type} (f : Tok → List γ) (P : List Tok → Prop) (rc : Str → Prop) (l r : Str) :
    Prop :=
  ∃ a lt rt, l = enc (a :: lt) ∧ r = enc rt ∧ Plain (a :: lt) ∧ (∀ s, a ≠ .t s) ∧
    (a :: lt).flatMap f = rt.flatMap f ∧
    ∀ o q, rc (enc q) → P (o ++ (a :: lt) ++ q) → P (o ++ rt ++ q)

theorem cdr_closed {γ : Type} {f : Tok → List γ} {P : List Tok → Prop} {rs : List (Str × Str)}
    {C : Cx Nat} (hP : ∀ ts, P ts → Plain ts) (hr : ∀ l r, (l, r) ∈ rs → RuleOk f P C.right l r)
    {out rest y : Str} (h : Cdr (rules rs) C out rest y) (ws : List Tok)
    (hw : out ++ rest = enc ws) (hp : P ws) :
    ∃ us, y = enc us ∧ P us ∧ us.flatMap f = ws.flatMap f := by
  induction h generalizing ws with
  | done => exact ⟨ws, by simpa using hw, hp, rfl⟩
  | insEnd h =>
    obtain ⟨a, lt, rt, h1, _⟩ := hr _ _ h
    have := congrArg List.length h1
    have := List.length_pos_iff.2 (enc1_ne a)
    simp [enc_cons] at *
    omega
  | @apply out l r rest fin h hl hL hR k ih =>
    obtain ⟨a, lt, rt, rfl, rfl, h3, h4, h5, h6⟩ := hr _ _ h
    obtain ⟨o, q, rfl, rfl, rfl⟩ := enc_factor (hP _ hp) h3 h4
      (by rw [← hw, List.append_assoc])
    obtain ⟨us, h7, h8, h9⟩ := ih (o ++ rt ++ q) (by rw [enc_append, enc_append])
      (h6 o q hR hp)
    refine ⟨us, h7, h8, ?_⟩
    rw [h9]
    simp only [List.flatMap_append, h5]
  | ins h =>
    obtain ⟨a, lt, rt, h1, _⟩ := hr _ _ h
    have := congrArg List.length h1
    have := List.length_pos_iff.2 (enc1_ne a)
    simp [enc_cons] at *
    omega
  | copy h k ih => exact ih ws (by rw [← hw]; simp) hp

theorem closed_cdrewrite {γ : Type} {f : Tok → List γ} {P : List Tok → Prop}
    {rs : List (Str × Str)} {L R : Lang} (hP : ∀ ts, P ts → Plain ts)
    (hr : ∀ l r, (l, r) ∈ rs → RuleOk f P (ctxOf L R).right l r) :
    Closed f P P (cdrewrite (rules rs) L R) :=
  fun ts hp _ hz => cdr_closed hP hr hz.2.2 ts (by simp) hp

theorem tot_cdrewrite {γ : Type} {f : Tok → List γ} {P : List Tok → Prop}
    {rs : List (Str × Str)} {L R : Lang} (hP : ∀ ts, P ts → Plain ts)
    (hr : ∀ l r, (l, r) ∈ rs → RuleOk f P (ctxOf L R).right l r) :
    Tot P (cdrewrite (rules rs) L R) := by
  intro ts hp
  have hne : ∀ l r, rules rs l r → l ≠ [] := by
    intro l r h
    obtain ⟨a, lt, rt, rfl, _⟩ := hr _ _ h
    rw [enc_cons]
    simp [enc1_ne]
  obtain ⟨y, hy⟩ := cdr_total (C := ctxOf L R) hne [] (enc ts)
  obtain ⟨us, h1, h2, _⟩ := cdr_closed hP hr hy ts (by simp) hp
  exact ⟨y, enc_over (hP _ hp), h1 ▸ enc_over (hP _ h2), hy⟩

end Nisaba.NT
