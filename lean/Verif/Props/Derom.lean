import Verif.Lemmas.DeromTr
/-!
# Properties of the Brahmic deromanizer: C105–C108

`toIso P m` and `toBrahmic P m` are the grammars `to_iso()` and `to_brahmic()` of the parameters `P` in
the mode `m` (bytes or UTF-8 code points).
-/
namespace Nisaba.NT
namespace Derom

/-- No field that a rule asks for is missing, so `Mapping.get` never stands for an attribute error. -/
theorem fields_defined : ∀ P ∈ [hi, ta], ∀ w ∈ typOps P ++ typ2iso P, ∀ p ∈ w.ls, p.1 ≠ [] ∧ p.2 ≠ [] := by
  have h : (([hi, ta] : List Params).all fun P => (typOps P ++ typ2iso P).all fun w => w.ls.all fun p =>
      !p.1.isEmpty && !p.2.isEmpty) = true := by
    set_option maxRecDepth 100000 in decide +kernel
  intro P hP w hw p hp
  have := List.all_eq_true.1 (List.all_eq_true.1 (List.all_eq_true.1 h P hP) w hw) p hp
  simp only [Bool.and_eq_true, Bool.not_eq_true', ← Bool.not_eq_true, List.isEmpty_iff] at this
  exact this

section
set_option maxRecDepth 100000
theorem ev1 : brhOf hi a!"hindi" = a!"हिंदि" ∧ isoOf hi a!"hindi" = a!"hiṁdi" ∧
    brhOf ta a!"zha" = a!"ழ" ∧ isoOf ta a!"zha" = a!"ḻa" := by decide +kernel
theorem ev2 : brhOf ta a!"thamizhi" = a!"தமிழி" ∧ brhOf hi a!"kampan" = a!"कंपं" := by decide +kernel
theorem ev3 : brhOf ta a!"tra" = a!"ற" ∧ isoOf ta a!"tra" = a!"ṟa" ∧
    brhOf ta a!"patru" = a!"பறு" ∧ isoOf ta a!"trtra" = a!"ṟṟa" ∧
    isoOf ta a!"tara" = a!"tara" := by decide +kernel
theorem ev4 : brhOf hi a!"khata" = a!"खता" ∧ brhOf hi a!"makkhi" = a!"मक्खि" := by decide +kernel
end

/-! ## C105 -/

/-- Every word of lowercase ASCII letters has exactly one deromanization in ISO, and no other text has
any.  The byte grammar writes the UTF-8 bytes of what the other one writes. -/
theorem C105_iso {P : Params} (hP : P = hi ∨ P = ta) (x : Str) :
    ((∀ c ∈ x, 97 ≤ c ∧ c ≤ 122) → ∃ y, ∀ m z, toIso P m x z ↔ z = m.labels y) ∧
    (¬ (∀ c ∈ x, 97 ≤ c ∧ c ≤ 122) → ∀ m z, ¬ toIso P m x z) := by
  refine ⟨fun h => ⟨isoOf P x, fun m z => ?_⟩, ?_⟩
  · rw [toIso_iff hP]
    exact ⟨fun h => h.2, fun h' => ⟨h, h'⟩⟩
  · intro h m z
    rw [toIso_iff hP]
    exact fun hz => h hz.1

/-- Likewise in the native script. -/
theorem C105_brahmic {P : Params} (hP : P = hi ∨ P = ta) (x : Str) :
    ((∀ c ∈ x, 97 ≤ c ∧ c ≤ 122) → ∃ y, ∀ m z, toBrahmic P m x z ↔ z = m.labels y) ∧
    (¬ (∀ c ∈ x, 97 ≤ c ∧ c ≤ 122) → ∀ m z, ¬ toBrahmic P m x z) := by
  refine ⟨fun h => ⟨brhOf P x, fun m z => ?_⟩, ?_⟩
  · rw [toBrahmic_iff hP]
    exact ⟨fun h => h.2, fun h' => ⟨h, h'⟩⟩
  · intro h m z
    rw [toBrahmic_iff hP]
    exact fun hz => h hz.1

theorem lower_of {x : Str} (h : (x.all fun c => Nat.ble 97 c && Nat.ble c 122) = true) : lower x := by
  intro c hc
  have := List.all_eq_true.1 h c hc
  rw [Bool.and_eq_true] at this
  exact ⟨Nat.le_of_ble_eq_true this.1, Nat.le_of_ble_eq_true this.2⟩

example : toBrahmic hi .utf8 a!"hindi" a!"हिंदि" ∧ toIso hi .utf8 a!"hindi" a!"hiṁdi" ∧
    toBrahmic ta .utf8 a!"zha" a!"ழ" ∧ toIso ta .utf8 a!"zha" a!"ḻa" := by
  refine ⟨(toBrahmic_iff (.inl rfl) _ _ _).2 ⟨lower_of (by decide), ev1.1.symm⟩,
    (toIso_iff (.inl rfl) _ _ _).2 ⟨lower_of (by decide), ev1.2.1.symm⟩,
    (toBrahmic_iff (.inr rfl) _ _ _).2 ⟨lower_of (by decide), ev1.2.2.1.symm⟩,
    (toIso_iff (.inr rfl) _ _ _).2 ⟨lower_of (by decide), ev1.2.2.2.symm⟩⟩
example : ¬ ∃ z, toIso hi .utf8 a!"Hindi" z := by
  rintro ⟨z, hz⟩
  exact (C105_iso (.inl rfl) _).2 (fun h => absurd (h 72 (by decide)).1 (by decide)) _ z hz

/-! ## C106 -/

/-- In a Hindi deromanization each vowel sign and each virama stands directly after a consonant letter
or a nukta, each nukta after a consonant letter, each anusvara after a consonant letter, a nukta, a
vowel sign or a vowel letter. -/
theorem C106_hi {x y u v : Str} {c : Nat} (h : toBrahmic hi .utf8 x y) (hy : y = u ++ c :: v) :
    (0x93e ≤ c ∧ c ≤ 0x94d → ∃ u' d, u = u' ++ [d] ∧ (0x915 ≤ d ∧ d ≤ 0x939 ∨ d = 0x93c)) ∧
    (c = 0x93c → ∃ u' d, u = u' ++ [d] ∧ 0x915 ≤ d ∧ d ≤ 0x939) ∧
    (c = 0x902 → ∃ u' d, u = u' ++ [d] ∧
      (0x904 ≤ d ∧ d ≤ 0x939 ∨ d = 0x93c ∨ 0x93e ≤ d ∧ d ≤ 0x94c)) := by
  obtain ⟨hx, hy'⟩ := (toBrahmic_iff (.inl rfl) _ _ _).1 h
  have hs := hi_shape hx
  rw [show Mode.utf8.labels (brhOf hi x) = brhOf hi x from rfl] at hy'
  rw [← hy', hy] at hs
  have ha := ok_split _ hs
  cases hl : lastC none u with
  | none =>
    rw [hl] at ha
    rw [Classes.after, Bool.not_eq_true', ← Bool.not_eq_true] at ha
    simp only [Classes.mark, devaK, Bool.or_eq_true, Bool.and_eq_true, Nat.ble_eq, Nat.beq_eq] at ha
    refine ⟨fun h => ?_, fun h => ?_, fun h => ?_⟩ <;> omega
  | some d =>
    obtain ⟨u', rfl⟩ := lastC_some hl
    rw [hl] at ha
    simp only [Classes.after, Classes.voc, Classes.base, devaK, Bool.and_eq_true, cond_eq_ite, Bool.or_eq_true,
      Nat.ble_eq, Nat.beq_eq] at ha
    refine ⟨fun h => ⟨u', d, rfl, ?_⟩, fun h => ⟨u', d, rfl, ?_⟩, fun h => ⟨u', d, rfl, ?_⟩⟩
    · have := ha.1
      rw [if_pos (by omega)] at this
      simpa using this
    · have := ha.2.1
      rw [if_pos h] at this
      simpa using this
    · have := ha.2.2
      rw [if_pos h] at this
      simp at this
      omega

/-- In a Tamil deromanization each vowel sign and each virama stands directly after a consonant
letter. -/
theorem C106_ta {x y u v : Str} {c : Nat} (h : toBrahmic ta .utf8 x y) (hy : y = u ++ c :: v)
    (hc : 0xbbe ≤ c ∧ c ≤ 0xbcd) : ∃ u' d, u = u' ++ [d] ∧ 0xb95 ≤ d ∧ d ≤ 0xbb9 := by
  obtain ⟨hx, hy'⟩ := (toBrahmic_iff (.inr rfl) _ _ _).1 h
  have hs := ta_shape hx
  rw [show Mode.utf8.labels (brhOf ta x) = brhOf ta x from rfl] at hy'
  rw [← hy', hy] at hs
  have ha := ok_split _ hs
  cases hl : lastC none u with
  | none =>
    rw [hl] at ha
    rw [Classes.after, Bool.not_eq_true', ← Bool.not_eq_true] at ha
    simp only [Classes.mark, tamlK, Bool.or_eq_true, Bool.and_eq_true, Nat.ble_eq, Nat.beq_eq] at ha
    omega
  | some d =>
    obtain ⟨u', rfl⟩ := lastC_some hl
    rw [hl] at ha
    simp only [Classes.after, Classes.voc, Classes.base, tamlK, Bool.and_eq_true, cond_eq_ite, Bool.or_eq_true,
      Nat.ble_eq, Nat.beq_eq] at ha
    refine ⟨u', d, rfl, ?_⟩
    have := ha.1
    rw [if_pos (by omega)] at this
    simpa using this

/-- Sign, virama and anusvara do occur: हिंदि has the sign at the second place, तर्क a virama. -/
example : toBrahmic hi .utf8 a!"hindi" (a!"ह" ++ 0x93f :: a!"ंदि") ∧
    toBrahmic ta .utf8 a!"thamizhi" (a!"தம" ++ 0xbbf :: a!"ழி") :=
  ⟨(toBrahmic_iff (.inl rfl) _ _ _).2 ⟨lower_of (by decide), ev1.1.symm⟩,
   (toBrahmic_iff (.inr rfl) _ _ _).2 ⟨lower_of (by decide), ev2.1.symm⟩⟩

/-- Aspirated letters are read as one letter, also after their plain letter. -/
example : toBrahmic hi .utf8 a!"khata" a!"खता" ∧ toBrahmic hi .utf8 a!"makkhi" a!"मक्खि" :=
  ⟨(toBrahmic_iff (.inl rfl) _ _ _).2 ⟨lower_of (by decide), ev4.1.symm⟩,
   (toBrahmic_iff (.inl rfl) _ _ _).2 ⟨lower_of (by decide), ev4.2.symm⟩⟩

/-! ## C107 -/

/-- The docstring of `only_geminated` says that the single Tamil `tr` is not rewritten, but it is: `tra`
becomes ற. -/
theorem C107_violated : toBrahmic ta .utf8 a!"tra" a!"ற" ∧ toIso ta .utf8 a!"tra" a!"ṟa" ∧
    toBrahmic ta .utf8 a!"patru" a!"பறு" ∧ toIso ta .utf8 a!"trtra" a!"ṟṟa" :=
  ⟨(toBrahmic_iff (.inr rfl) _ _ _).2 ⟨lower_of (by decide), ev3.1.symm⟩,
   (toIso_iff (.inr rfl) _ _ _).2 ⟨lower_of (by decide), ev3.2.1.symm⟩,
   (toBrahmic_iff (.inr rfl) _ _ _).2 ⟨lower_of (by decide), ev3.2.2.1.symm⟩,
   (toIso_iff (.inr rfl) _ _ _).2 ⟨lower_of (by decide), ev3.2.2.2.1.symm⟩⟩

/-- The deromanization has the letter ற (ISO ṟ) exactly for words with `tr`, single or not.  What is
missing is that a single `tr` should give none. -/
theorem C107_partial {x y : Str} : (toBrahmic ta .utf8 x y → (0xbb1 ∈ y ↔ a!"tr" <:+: x)) ∧
    (toIso ta .utf8 x y → (0x1e5f ∈ y ↔ a!"tr" <:+: x)) := by
  constructor
  · rw [toBrahmic_iff (.inr rfl)]
    rintro ⟨hx, hy⟩
    rw [hy]
    exact ta_rr hx
  · rw [toIso_iff (.inr rfl)]
    rintro ⟨hx, hy⟩
    rw [hy]
    exact ta_rr_iso hx

example : toIso ta .utf8 a!"tara" a!"tara" ∧ ¬ (0x1e5f ∈ a!"tara") ∧ ¬ a!"tr" <:+: a!"tara" := by
  have h := (toIso_iff (.inr rfl) .utf8 a!"tara" a!"tara").2 ⟨lower_of (by decide), ev3.2.2.2.2.symm⟩
  have h1 : ¬ (0x1e5f ∈ a!"tara") := by decide
  exact ⟨h, h1, fun h2 => h1 ((C107_partial.2 h).2 h2)⟩

/-! ## C108 -/

/-- The vowels of the deromanizer. -/
def aeiou (c : Nat) : Prop := c = 97 ∨ c = 101 ∨ c = 105 ∨ c = 111 ∨ c = 117

instance (c : Nat) : Decidable (aeiou c) := by unfold aeiou; infer_instance

/-- At the place `i` there is an `n` or `m` that Hindi writes with an anusvara: after a vowel, `m` before
`b` or `p`, `n` at the end or before a consonant other than `n` and `m`. -/
def NasalAt (x : Str) (i : Nat) : Prop :=
  (∃ c, x[i]? = some c ∧ aeiou c) ∧
  (x[i + 1]? = some 109 ∧ (x[i + 2]? = some 98 ∨ x[i + 2]? = some 112) ∨
   x[i + 1]? = some 110 ∧ ∀ c, x[i + 2]? = some c → ¬ aeiou c ∧ c ≠ 110 ∧ c ≠ 109)

instance (x : Str) (i : Nat) : Decidable (NasalAt x i) := by
  have : Decidable (∃ c, x[i]? = some c ∧ aeiou c) :=
    match x[i]? with
    | none => isFalse (by simp)
    | some c => if h : aeiou c then isTrue ⟨c, rfl, h⟩ else isFalse (by simpa using h)
  have : Decidable (∀ c, x[i + 2]? = some c → ¬ aeiou c ∧ c ≠ 110 ∧ c ≠ 109) :=
    match x[i + 2]? with
    | none => isTrue (by simp)
    | some c => if h : ¬ aeiou c ∧ c ≠ 110 ∧ c ≠ 109 then isTrue (by intro d hd; injection hd with hd; subst hd; exact h)
      else isFalse (fun h' => h (h' c rfl))
  unfold NasalAt
  infer_instance

/-- The number of these places. -/
def nasals (x : Str) : Nat := ((List.range x.length).filter fun i => decide (NasalAt x i)).length

section
set_option maxRecDepth 100000
theorem letters26 : ((List.range 26).all fun i =>
    (vowB (97 + i) == decide (aeiou (97 + i))) &&
    (conB (97 + i) == decide (¬ aeiou (97 + i) ∧ 97 + i ≠ 110 ∧ 97 + i ≠ 109))) = true := by decide +kernel
end

theorem letter26 {c : Nat} (h : 97 ≤ c ∧ c ≤ 122) : (vowB c = true ↔ aeiou c) ∧
    (conB c = true ↔ ¬ aeiou c ∧ c ≠ 110 ∧ c ≠ 109) := by
  have := List.all_eq_true.1 letters26 (c - 97) (List.mem_range.2 (by omega))
  rw [show 97 + (c - 97) = c by omega, Bool.and_eq_true, beq_iff_eq, beq_iff_eq] at this
  rw [this.1, this.2, decide_eq_true_iff, decide_eq_true_iff]
  exact ⟨Iff.rfl, Iff.rfl⟩

/-- Whether the second letter of `c :: x` is written with an anusvara. -/
theorem nas_head {c d : Nat} {x : Str} (h : lower (c :: d :: x)) :
    ((Nat.beq d 109 && (vowB c && bpB x)) || (Nat.beq d 110 && (vowB c && conS x))) = true ↔
      NasalAt (c :: d :: x) 0 := by
  have hc := letter26 (h c (by simp))
  simp only [Bool.or_eq_true, Bool.and_eq_true, Nat.beq_eq, hc.1, NasalAt, List.getElem?_cons_zero,
    List.getElem?_cons_succ, Option.some.injEq, exists_eq_left', Nat.zero_add]
  have hb : bpB x = true ↔ (x[0]? = some 98 ∨ x[0]? = some 112) := by
    cases x with
    | nil => simp [bpB]
    | cons e x =>
      simp only [bpB, Bool.or_eq_true, Nat.beq_eq, List.getElem?_cons_zero, Option.some.injEq]
      exact or_congr eq_comm eq_comm
  have hs : conS x = true ↔ ∀ e, x[0]? = some e → ¬ aeiou e ∧ e ≠ 110 ∧ e ≠ 109 := by
    cases x with
    | nil => simp [conS]
    | cons e x =>
      simp only [conS, List.getElem?_cons_zero, Option.some.injEq, forall_eq']
      exact (letter26 (h e (by simp))).2
  rw [hb, hs]
  constructor
  · rintro (⟨h1, h2, h3⟩ | ⟨h1, h2, h3⟩)
    · exact ⟨h2, .inl ⟨h1, h3⟩⟩
    · exact ⟨h2, .inr ⟨h1, h3⟩⟩
  · rintro ⟨h2, ⟨h1, h3⟩ | ⟨h1, h3⟩⟩
    · exact .inl ⟨h1, h2, h3⟩
    · exact .inr ⟨h1, h2, h3⟩

theorem nasals_cons (c : Nat) (x : Str) :
    nasals (c :: x) = (if NasalAt (c :: x) 0 then 1 else 0) + nasals x := by
  have key : ∀ i, NasalAt (c :: x) (i + 1) ↔ NasalAt x i := by
    intro i
    simp only [NasalAt, List.getElem?_cons_succ, show i + 1 + 1 = (i + 1) + 1 from rfl,
      show i + 1 + 2 = (i + 2) + 1 from rfl]
  rw [nasals, List.length_cons, List.range_succ_eq_map, List.filter_cons, List.filter_map, nasals]
  have : ((List.range x.length).filter ((fun i => decide (NasalAt (c :: x) i)) ∘ Nat.succ)) =
      (List.range x.length).filter fun i => decide (NasalAt x i) := by
    apply List.filter_congr
    intro i _
    simp only [Function.comp, Nat.succ_eq_add_one, key]
  rw [this]
  split <;> split <;> simp_all <;> omega

theorem nas_eq {c : Nat} {x : Str} (h : lower (c :: x)) : nas (vowB c) x = nasals (c :: x) := by
  induction x generalizing c with
  | nil =>
    rw [nasals_cons, if_neg (by rintro ⟨_, ⟨h, _⟩ | ⟨h, _⟩⟩ <;> simp at h)]
    rfl
  | cons d x ih =>
    have h' : lower (d :: x) := fun e he => h e (by simp [he])
    rw [nas, ih h', nasals_cons c, cond_eq_ite]
    congr 1
    by_cases hn : NasalAt (c :: d :: x) 0
    · rw [if_pos hn, if_pos ((nas_head h).2 hn)]
    · rw [if_neg hn, if_neg fun h1 => hn ((nas_head h).1 h1)]

theorem nas_false {x : Str} (h : lower x) : nas false x = nasals x := by
  cases x with
  | nil => rfl
  | cons c x =>
    rw [nas, nas_eq h]
    simp

/-- In Hindi the number of anusvaras is the number of the places where the word has a nasal that is
written with one, in the native script and in ISO. -/
theorem C108_anusvara {x y : Str} : (toBrahmic hi .utf8 x y → y.count 0x902 = nasals x) ∧
    (toIso hi .utf8 x y → y.count 0x1e41 = nasals x) := by
  constructor
  · rw [toBrahmic_iff (.inl rfl)]
    rintro ⟨hx, hy⟩
    rw [hy]
    rw [← nas_false hx]
    exact hi_count hx
  · rw [toIso_iff (.inl rfl)]
    rintro ⟨hx, hy⟩
    rw [hy]
    rw [← nas_false hx]
    exact hi_count_iso hx

example : toBrahmic hi .utf8 a!"kampan" a!"कंपं" ∧ nasals a!"kampan" = 2 :=
  ⟨(toBrahmic_iff (.inl rfl) _ _ _).2 ⟨lower_of (by decide), ev2.2.symm⟩, by decide⟩
example : nasals a!"hindi" = 1 ∧ nasals a!"anna" = 0 ∧ nasals a!"namaste" = 0 := by decide

end Derom
end Nisaba.NT
