import Verif.Model.Spellout
import Verif.Lemmas.ByteMode
import Verif.Lemmas.NtIso
import Verif.Lemmas.NtDfa
import Verif.Lemmas.DeromText
/-!
# Lemmas for the speller of English letters
-/
namespace Nisaba.NT.Spellout
open Nisaba

/-! ### Labels -/

theorem labels_enc {s : Str} (hs : Over textChar s) : Mode.byte.labels s = encText s := by
  induction s with
  | nil => rfl
  | cons c s ih =>
    have hc := (hs c (by simp)).1
    have : ¬ 0x110000 ≤ c := by have := (Utf8.isScalar_iff c).1 hc; omega
    rw [encText_cons, ← ih fun c hc => hs c (List.mem_cons_of_mem _ hc), encChar, if_neg this]
    rfl

theorem over_enc {s : Str} (hs : Over textChar s) : Over encodable s := fun c hc => Or.inr (hs c hc).1

theorem labels_inj (m : Mode) {s t : Str} (hs : Over textChar s) (ht : Over textChar t)
    (h : m.labels s = m.labels t) : s = t := by
  cases m with
  | utf8 => exact h
  | byte => rw [labels_enc hs, labels_enc ht] at h; exact encText_inj (over_enc hs) (over_enc ht) h

theorem labels_suffix (m : Mode) {s : Str} {c : Nat} (hs : Over textChar s) (hc : textChar c) {p : Str}
    (h : m.labels s = p ++ m.labels [c]) : ∃ s', s = s' ++ [c] ∧ p = m.labels s' := by
  have hc1 : Over textChar [c] := by intro x hx; rw [List.mem_singleton.1 hx]; exact hc
  cases m with
  | utf8 => exact ⟨p, h, rfl⟩
  | byte =>
    rw [labels_enc hs, labels_enc hc1] at h
    obtain ⟨s', rfl, e⟩ := encText_suffix (over_enc hc1) (over_enc hs) h
    exact ⟨s', rfl, by rw [e, labels_enc fun c hc => hs c (List.mem_append_left _ hc)]⟩

theorem labels_ne_nil (m : Mode) {c : Nat} : m.labels [c] ≠ [] := by
  cases m with
  | utf8 => simp [Mode.labels]
  | byte =>
    simp only [Mode.labels, List.flatMap_cons, List.flatMap_nil, List.append_nil]
    unfold Utf8.encodeRaw
    repeat' split
    all_goals simp

/-! ### Deletion of a string before the end of the text -/

/-- The text without a final `z`. -/
def strip (z s : Str) : Str := if z <:+ s then s.take (s.length - z.length) else s

theorem strip_append (z s : Str) : strip z (s ++ z) = s := by
  unfold strip
  rw [if_pos (List.suffix_append _ _)]
  simp

theorem strip_self (z : Str) : strip z z = [] := strip_append z []

theorem strip_cons {z : Str} {c : Nat} {s : Str} (h : c :: s ≠ z) :
    strip z (c :: s) = c :: strip z s := by
  unfold strip
  by_cases k : z <:+ s
  · have hl := k.length_le
    rw [if_pos k, if_pos (List.suffix_cons_iff.2 (Or.inr k)),
      show (c :: s).length - z.length = (s.length - z.length) + 1 by simp; omega]
    rfl
  · rw [if_neg k, if_neg]
    intro h'
    rcases List.suffix_cons_iff.1 h' with e | e
    · exact h e.symm
    · exact k e

theorem strip_nil (z : Str) : strip z [] = [] := by
  unfold strip
  split
  · simp
  · rfl

/-- The rule `z → ''` before the end of the text. -/
abbrev delRel (z : Str) : Rel := cross (str z) (str [])
abbrev endCtx : Ctx := ⟨fun _ => True, fun rest => rest = []⟩

theorem del_applicable {z out rest l r rest' : Str} :
    Applicable (delRel z) endCtx out rest l r rest' ↔ l = z ∧ r = [] ∧ rest' = [] ∧ rest = z := by
  constructor
  · rintro ⟨⟨rfl, rfl⟩, e, _, k⟩
    have k : rest' = [] := k
    exact ⟨rfl, rfl, k, by rw [e, k, List.append_nil]⟩
  · rintro ⟨rfl, rfl, rfl, rfl⟩
    exact ⟨⟨rfl, rfl⟩, by simp, trivial, rfl⟩

theorem del_iff {z : Str} (out s fin : Str) :
    CDRewrite (delRel z) endCtx out s fin ↔ fin = out ++ strip z s := by
  constructor
  · intro h
    induction h with
    | done out => rw [strip_nil z, List.append_nil]
    | apply h k ih =>
      obtain ⟨_, rfl, rfl, e⟩ := del_applicable.1 h
      rw [ih, strip_nil z, e, strip_self]
      simp
    | @copy out rest fin c h k ih =>
      have hne : c :: rest ≠ z := fun e => h z [] [] (del_applicable.2 ⟨rfl, rfl, rfl, e⟩)
      rw [ih, strip_cons hne]
      simp
  · rintro rfl
    induction s generalizing out with
    | nil => rw [strip_nil z, List.append_nil]; exact .done _
    | cons c s ih =>
      by_cases e : c :: s = z
      · have h0 : strip z (c :: s) = [] := by
          rw [e, strip_self]
        rw [h0]
        refine .apply (del_applicable.2 ⟨rfl, rfl, rfl, e⟩) ?_
        rw [List.append_nil]
        exact .done _
      · rw [strip_cons e]
        refine .copy (fun l r rest' h => e (del_applicable.1 h).2.2.2) ?_
        have := ih (out ++ [c])
        rwa [List.append_assoc] at this

/-- The text without a final character `c`. -/
def dropSep (c : Nat) (t : Str) : Str := if t.getLast? = some c then t.dropLast else t

theorem dropSep_append (c : Nat) (t : Str) : dropSep c (t ++ [c]) = t := by
  simp [dropSep]

theorem strip_labels (m : Mode) {c : Nat} (hc : textChar c) {t : Str} (ht : Over textChar t) :
    strip (m.labels [c]) (m.labels t) = m.labels (dropSep c t) := by
  by_cases h : t.getLast? = some c
  · obtain ⟨u, rfl⟩ := List.getLast?_eq_some_iff.1 h
    rw [dropSep_append, labels_append, strip_append]
  · unfold strip dropSep
    rw [if_neg h, if_neg]
    rintro ⟨p, e⟩
    obtain ⟨s', rfl, _⟩ := labels_suffix m ht hc e.symm
    simp at h

theorem dropSep_prefix (c : Nat) (t : Str) : dropSep c t <+: t := by
  unfold dropSep
  split
  · exact List.dropLast_prefix t
  · exact List.prefix_refl t

/-! ### The closure over the letters -/

/-- The text is over the characters of the spellings. -/
theorem sigma_of (m : Mode) (sp : List (Nat × Str)) {t : Str}
    (h : ∀ c ∈ t, c ∈ sp.flatMap fun p => p.2) : sigmaStar m sp (m.labels t) := by
  induction t with
  | nil => rw [labels_nil]; exact .nil
  | cons c t ih =>
    rw [show c :: t = [c] ++ t from rfl, labels_append]
    exact .cons ⟨_, List.mem_map.2 ⟨c, h c (by simp), rfl⟩, rfl⟩
      (ih fun x hx => h x (List.mem_cons_of_mem _ hx))

/-- ASCII letter. -/
def isLetter (c : Nat) : Bool := (65 ≤ c && c ≤ 90) || (97 ≤ c && c ≤ 122)

/-- `str.lower` of an ASCII letter. -/
def lower (c : Nat) : Nat := if c ≤ 90 then c + 32 else c

/-- Entry of a list of letters and spellings. -/
def entryIn (sp : List (Nat × Str)) (c : Nat) : Str :=
  match sp.find? (fun p => p.1 == lower c) with
  | some p => p.2
  | none => []

/-- The letters of the list are the 26 letters in order. -/
def Keys (sp : List (Nat × Str)) : Prop := sp.map Prod.fst = (List.range 26).map (· + 97)

theorem keys_letter {sp : List (Nat × Str)} (hk : Keys sp) {p : Nat × Str} (hp : p ∈ sp) :
    97 ≤ p.1 ∧ p.1 ≤ 122 := by
  have : p.1 ∈ (List.range 26).map (· + 97) := by rw [← hk]; exact List.mem_map_of_mem hp
  obtain ⟨n, hn, e⟩ := List.mem_map.1 this
  have := List.mem_range.1 hn
  omega

theorem keys_nodup {sp : List (Nat × Str)} (hk : Keys sp) : (sp.map Prod.fst).Nodup := by
  rw [hk]
  exact by decide

theorem find_of_nodup {sp : List (Nat × Str)} (hn : (sp.map Prod.fst).Nodup) {p : Nat × Str}
    (hp : p ∈ sp) : sp.find? (fun q => q.1 == p.1) = some p := by
  induction sp with
  | nil => cases hp
  | cons q sp ih =>
    rw [List.map_cons, List.nodup_cons] at hn
    rcases List.mem_cons.1 hp with rfl | hp
    · simp
    · have hne : q.1 ≠ p.1 := fun e => hn.1 (e ▸ List.mem_map_of_mem hp)
      rw [List.find?_cons_of_neg (by simpa using hne)]
      exact ih hn.2 hp

theorem entryIn_of {sp : List (Nat × Str)} (hk : Keys sp) {p : Nat × Str} (hp : p ∈ sp) {c : Nat}
    (hc : lower c = p.1) : entryIn sp c = p.2 := by
  unfold entryIn
  rw [hc, find_of_nodup (keys_nodup hk) hp]

theorem letter_mem {sp : List (Nat × Str)} (hk : Keys sp) {c : Nat} (hc : isLetter c = true) :
    ∃ p ∈ sp, p.1 = lower c := by
  have : lower c ∈ sp.map Prod.fst := by
    rw [hk]
    simp only [isLetter, Bool.or_eq_true, Bool.and_eq_true, decide_eq_true_eq] at hc
    refine List.mem_map.2 ⟨lower c - 97, List.mem_range.2 ?_, ?_⟩ <;> unfold lower <;> split <;> omega
  obtain ⟨p, hp, e⟩ := List.mem_map.1 this
  exact ⟨p, hp, e⟩

theorem labels_one (m : Mode) {c : Nat} (hc : c < 128) : m.labels [c] = [c] :=
  labels_ascii m (by intro x hx; rw [List.mem_singleton.1 hx]; exact hc)

theorem spellFst_iff (m : Mode) {sp : List (Nat × Str)} (hk : Keys sp) (x y : Str) :
    spellFst m sp x y ↔ (∀ c ∈ x, isLetter c = true) ∧ y = m.labels (x.flatMap (entryIn sp)) := by
  constructor
  · intro h
    induction h with
    | nil => exact ⟨by simp, by simp [labels_nil]⟩
    | @cons u v x y h _ ih =>
      obtain ⟨r, hr, hx⟩ := h
      obtain ⟨p, hp, rfl⟩ := List.mem_map.1 hr
      obtain ⟨hu, hy⟩ := hx
      have hy : x = m.labels p.2 := hy
      have hp1 := keys_letter hk hp
      have : ∃ c, u = [c] ∧ isLetter c = true ∧ lower c = p.1 := by
        rcases hu with hu | hu
        · refine ⟨p.1, ?_, ?_, ?_⟩
          · have hu : u = m.labels [p.1] := hu
            rw [hu, labels_one m (by omega)]
          · simp only [isLetter, Bool.or_eq_true, Bool.and_eq_true, decide_eq_true_eq]; omega
          · unfold lower; rw [if_neg (by omega)]
        · refine ⟨upper p.1, ?_, ?_, ?_⟩
          · have hu : u = m.labels [upper p.1] := hu
            rw [hu, labels_one m (by unfold upper; omega)]
          · have e : 65 ≤ upper p.1 ∧ upper p.1 ≤ 90 := by unfold upper; omega
            simp [isLetter, e]
          · unfold lower upper; rw [if_pos (by omega)]; omega
      obtain ⟨c, rfl, hc, hl⟩ := this
      refine ⟨?_, ?_⟩
      · intro d hd
        rcases List.mem_cons.1 hd with rfl | hd
        · exact hc
        · exact ih.1 d hd
      · rw [hy, ih.2, ← labels_append, List.singleton_append, List.flatMap_cons, entryIn_of hk hp hl]
  · rintro ⟨hx, rfl⟩
    induction x with
    | nil => rw [List.flatMap_nil, labels_nil]; exact .nil
    | cons c x ih =>
      obtain ⟨p, hp, hl⟩ := letter_mem hk (hx c (by simp))
      have hp1 := keys_letter hk hp
      rw [List.flatMap_cons, labels_append, entryIn_of hk hp hl.symm]
      refine StarR.cons (u := [c]) ⟨_, List.mem_map.2 ⟨p, hp, rfl⟩, ?_, rfl⟩
        (ih fun d hd => hx d (List.mem_cons_of_mem _ hd))
      have hc := hx c (by simp)
      simp only [isLetter, Bool.or_eq_true, Bool.and_eq_true, decide_eq_true_eq] at hc
      by_cases h90 : c ≤ 90
      · right
        show [c] = m.labels [upper p.1]
        have : upper p.1 = c := by rw [hl]; unfold upper lower; rw [if_pos h90]; omega
        rw [this, labels_one m (by omega)]
      · left
        show [c] = m.labels [p.1]
        have : p.1 = c := by rw [hl]; unfold lower; rw [if_neg h90]
        rw [this, labels_one m (by omega)]

theorem entryIn_mem {sp : List (Nat × Str)} (hk : Keys sp) {c : Nat} (hc : isLetter c = true) :
    ∃ p ∈ sp, entryIn sp c = p.2 := by
  obtain ⟨p, hp, hl⟩ := letter_mem hk hc
  exact ⟨p, hp, entryIn_of hk hp hl.symm⟩

theorem separated_iff (m : Mode) {sp : List (Nat × Str)} (hk : Keys sp)
    (ht : ∀ p ∈ sp, Over textChar p.2) {sep : Nat} (hs : textChar sep) (x y : Str) :
    separated m (spellFst m sp) sp sep x y ↔
      (∀ c ∈ x, isLetter c = true) ∧ y = m.labels (dropSep sep (x.flatMap (entryIn sp))) := by
  have hmem : (∀ c ∈ x, isLetter c = true) →
      ∀ c ∈ x.flatMap (entryIn sp), c ∈ sp.flatMap fun p => p.2 := by
    intro hx c hc
    obtain ⟨d, hd, hc⟩ := List.mem_flatMap.1 hc
    obtain ⟨p, hp, e⟩ := entryIn_mem hk (hx d hd)
    rw [e] at hc
    exact List.mem_flatMap.2 ⟨p, hp, hc⟩
  have hov : (∀ c ∈ x, isLetter c = true) → Over textChar (x.flatMap (entryIn sp)) := by
    intro hx c hc
    obtain ⟨p, hp, hc⟩ := List.mem_flatMap.1 (hmem hx c hc)
    exact ht p hp c hc
  constructor
  · rintro ⟨y₁, h1, _, _, h2⟩
    obtain ⟨hx, rfl⟩ := (spellFst_iff m hk x y₁).1 h1
    rw [del_iff, List.nil_append, strip_labels m hs (hov hx)] at h2
    exact ⟨hx, h2⟩
  · rintro ⟨hx, rfl⟩
    refine ⟨_, (spellFst_iff m hk x _).2 ⟨hx, rfl⟩, sigma_of m sp (hmem hx), sigma_of m sp ?_, ?_⟩
    · intro c hc
      exact hmem hx c ((dropSep_prefix sep _).subset hc)
    · rw [del_iff, List.nil_append, strip_labels m hs (hov hx)]

/-! ### Unique decodability -/

/-- What is left of `b` after `a`. -/
def dropPre : Str → Str → Option Str
  | [], b => some b
  | _ :: _, [] => none
  | x :: a, y :: b => bif Nat.beq x y then dropPre a b else none

theorem dropPre_append (a t : Str) : dropPre a (a ++ t) = some t := by
  induction a with
  | nil => rfl
  | cons x a ih => simp [dropPre, ih]

/-- `D` contains the dangling suffixes of the code (Sardinas and Patterson), and neither the empty
string nor the separator is among them. -/
def sardOk (code D : List Str) (sep : Nat) : Bool :=
  code.all (fun a => code.all fun b =>
    match dropPre a b with
    | some t => seq a b || D.any (seq t)
    | none => true) &&
  D.all (fun s => code.all fun a =>
    (match dropPre s a with | some t => D.any (seq t) | none => true) &&
    (match dropPre a s with | some t => D.any (seq t) | none => true)) &&
  !(D.any (seq [])) && !(D.any (seq [sep])) && !(code.any (seq [])) && !(code.any (seq [sep]))

theorem mem_seq {D : List Str} {t : Str} : D.any (seq t) = true ↔ t ∈ D := by
  simp only [List.any_eq_true, seq_eq]
  constructor
  · rintro ⟨s, hs, rfl⟩; exact hs
  · intro h; exact ⟨t, h, rfl⟩

structure Sard (code D : List Str) (sep : Nat) : Prop where
  pair : ∀ a ∈ code, ∀ t, a ++ t ∈ code → t ≠ [] → t ∈ D
  left : ∀ s ∈ D, ∀ t, s ++ t ∈ code → t ∈ D
  right : ∀ a ∈ code, ∀ t, a ++ t ∈ D → t ∈ D
  nilD : [] ∉ D
  sepD : [sep] ∉ D
  nilC : [] ∉ code
  sepC : [sep] ∉ code

theorem sard_of {code D : List Str} {sep : Nat} (h : sardOk code D sep = true) : Sard code D sep := by
  unfold sardOk at h
  simp only [Bool.and_eq_true, List.all_eq_true, Bool.not_eq_true'] at h
  obtain ⟨⟨⟨⟨⟨h1, h2⟩, h3⟩, h4⟩, h5⟩, h6⟩ := h
  have no : ∀ {D : List Str} {t : Str}, D.any (seq t) = false → t ∉ D := by
    intro D t h k
    rw [mem_seq.2 k] at h
    cases h
  refine ⟨?_, ?_, ?_, no h3, no h4, no h5, no h6⟩
  · intro a ha t hb ht
    have := h1 a ha _ hb
    rw [dropPre_append] at this
    simp only [Bool.or_eq_true, seq_eq, mem_seq] at this
    rcases this with e | e
    · exact absurd (List.self_eq_append_right.1 e) ht
    · exact e
  · intro s hs t ha
    have := (h2 s hs _ ha).1
    rw [dropPre_append] at this
    exact mem_seq.1 this
  · intro a ha t hs
    have := (h2 _ hs a ha).2
    rw [dropPre_append] at this
    exact mem_seq.1 this

theorem append_split {a b c d : Str} (h : a ++ b = c ++ d) :
    (∃ t, c = a ++ t ∧ b = t ++ d) ∨ ∃ t, a = c ++ t ∧ d = t ++ b := by
  rcases List.append_eq_append_iff.1 h with ⟨t, h1, h2⟩ | ⟨t, h1, h2⟩
  · exact Or.inl ⟨t, h1, h2⟩
  · exact Or.inr ⟨t, h1, h2⟩

/-- A tail that may be left after the last code word. -/
def IsTail (sep : Nat) (t : Str) : Prop := t = [] ∨ t = [sep]

theorem tail_single {sep : Nat} {t a b : Str} (ht : IsTail sep t) (h : a ++ b = t) (ha : a ≠ []) :
    a = [sep] ∧ b = [] := by
  rcases ht with rfl | rfl
  · exact absurd (List.append_eq_nil_iff.1 h).1 ha
  · cases a with
    | nil => exact absurd rfl ha
    | cons x a => simp at h; simp [h]

theorem sard_dangling {code D : List Str} {sep : Nat} (S : Sard code D sep) :
    ∀ (n : Nat) (s : Str) (us vs : List Str) (t₁ t₂ : Str), us.flatten.length + vs.flatten.length ≤ n →
      s ∈ D → (∀ u ∈ us, u ∈ code) → (∀ v ∈ vs, v ∈ code) → IsTail sep t₁ → IsTail sep t₂ →
      s ++ (us.flatten ++ t₁) ≠ vs.flatten ++ t₂ := by
  intro n
  induction n with
  | zero =>
    intro s us vs t₁ t₂ hn hs hu hv h1 h2 h
    have e : vs.flatten = [] := List.length_eq_zero_iff.1 (by omega)
    rw [e, List.nil_append] at h
    exact S.sepD ((tail_single h2 h (fun e => S.nilD (e ▸ hs))).1 ▸ hs)
  | succ n ih =>
    intro s us vs t₁ t₂ hn hs hu hv h1 h2 h
    cases vs with
    | nil =>
      rw [List.flatten_nil, List.nil_append] at h
      exact S.sepD ((tail_single h2 h (fun e => S.nilD (e ▸ hs))).1 ▸ hs)
    | cons v vs =>
      have hvc := hv v (by simp)
      have hvne : v ≠ [] := fun e => S.nilC (e ▸ hvc)
      have hvl : 0 < v.length := List.length_pos_iff.2 hvne
      have hv' : ∀ w ∈ vs, w ∈ code := fun w hw => hv w (List.mem_cons_of_mem _ hw)
      rw [List.flatten_cons, List.append_assoc] at h
      rw [List.flatten_cons, List.length_append] at hn
      rcases append_split h with ⟨t, e1, e2⟩ | ⟨t, e1, e2⟩
      · exact ih t vs us t₂ t₁ (by omega) (S.left s hs t (e1 ▸ hvc)) hv' hu h2 h1 e2.symm
      · exact ih t us vs t₁ t₂ (by omega) (S.right v hvc t (e1 ▸ hs)) hu hv' h1 h2 e2.symm

theorem sard_unique {code D : List Str} {sep : Nat} (S : Sard code D sep) :
    ∀ (us vs : List Str) (t₁ t₂ : Str), (∀ u ∈ us, u ∈ code) → (∀ v ∈ vs, v ∈ code) →
      IsTail sep t₁ → IsTail sep t₂ → us.flatten ++ t₁ = vs.flatten ++ t₂ → us = vs := by
  intro us
  induction us with
  | nil =>
    intro vs t₁ t₂ _ hv h1 _ h
    cases vs with
    | nil => rfl
    | cons v vs =>
      have hvc := hv v (by simp)
      rw [List.flatten_nil, List.nil_append, List.flatten_cons, List.append_assoc] at h
      exact absurd ((tail_single h1 h.symm (fun e => S.nilC (e ▸ hvc))).1 ▸ hvc) S.sepC
  | cons u us ih =>
    intro vs t₁ t₂ hu hv h1 h2 h
    have huc := hu u (by simp)
    have hu' : ∀ w ∈ us, w ∈ code := fun w hw => hu w (List.mem_cons_of_mem _ hw)
    cases vs with
    | nil =>
      rw [List.flatten_nil, List.nil_append, List.flatten_cons, List.append_assoc] at h
      exact absurd ((tail_single h2 h (fun e => S.nilC (e ▸ huc))).1 ▸ huc) S.sepC
    | cons v vs =>
      have hvc := hv v (by simp)
      have hv' : ∀ w ∈ vs, w ∈ code := fun w hw => hv w (List.mem_cons_of_mem _ hw)
      rw [List.flatten_cons, List.flatten_cons, List.append_assoc, List.append_assoc] at h
      rcases append_split h with ⟨t, e1, e2⟩ | ⟨t, e1, e2⟩
      · by_cases ht : t = []
        · subst ht
          rw [List.append_nil] at e1
          rw [e1, ih vs t₁ t₂ hu' hv' h1 h2 e2]
        · exact absurd e2.symm
            (sard_dangling S _ t vs us t₂ t₁ (Nat.le_refl _) (S.pair u huc t (e1 ▸ hvc) ht) hv' hu' h2 h1)
      · by_cases ht : t = []
        · subst ht
          rw [List.append_nil] at e1
          rw [e1, ih vs t₁ t₂ hu' hv' h1 h2 e2.symm]
        · exact absurd e2.symm
            (sard_dangling S _ t us vs t₁ t₂ (Nat.le_refl _) (S.pair v hvc t (e1 ▸ huc) ht) hu' hv' h1 h2)

theorem dropSep_eq (c : Nat) (t : Str) : ∃ a, IsTail c a ∧ t = dropSep c t ++ a := by
  by_cases h : t.getLast? = some c
  · obtain ⟨u, rfl⟩ := List.getLast?_eq_some_iff.1 h
    exact ⟨[c], Or.inr rfl, by rw [dropSep_append]⟩
  · exact ⟨[], Or.inl rfl, by simp [dropSep, h]⟩

theorem tail_comm {c : Nat} {a b : Str} (ha : IsTail c a) (hb : IsTail c b) : a ++ b = b ++ a := by
  rcases ha with rfl | rfl <;> rcases hb with rfl | rfl <;> rfl

theorem sard_dropSep {code D : List Str} {sep : Nat} (S : Sard code D sep) {us vs : List Str}
    (hu : ∀ u ∈ us, u ∈ code) (hv : ∀ v ∈ vs, v ∈ code)
    (h : dropSep sep us.flatten = dropSep sep vs.flatten) : us = vs := by
  obtain ⟨a, ha, e1⟩ := dropSep_eq sep us.flatten
  obtain ⟨b, hb, e2⟩ := dropSep_eq sep vs.flatten
  refine sard_unique S us vs b a hu hv hb ha ?_
  rw [e1, e2, h, List.append_assoc, List.append_assoc, tail_comm ha hb]

/-- Dangling suffixes, found by search. -/
def dangling (code : List Str) : Nat → List Str → List Str
  | 0, D => D
  | n + 1, D =>
    let new := D.flatMap fun s => code.flatMap fun a =>
      (match dropPre s a with | some t => [t] | none => []) ++
      (match dropPre a s with | some t => [t] | none => [])
    let fresh := new.filter fun t => !(D.any (seq t))
    bif fresh.isEmpty then D else dangling code n (fresh ++ D)

def suffixes (code : List Str) : List Str :=
  dangling code 20 (code.flatMap fun a => code.flatMap fun b =>
    match dropPre a b with | some t => bif seq a b then [] else [t] | none => [])

end Nisaba.NT.Spellout
