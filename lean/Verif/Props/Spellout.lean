import Verif.Lemmas.Spellout
import Verif.Props.Iso
import Mathlib.Data.List.Basic
/-!
# Spelling out English letters (C110 – C112)
-/
namespace Nisaba.Props
open Nisaba NT NT.Spellout

/-! ## C110 -/

/-- Spelling of a letter: the cell of the table in the row of the letter and the column of the
language and the script, or the letter itself in lower case if the table has no such column. -/
def spelling (l : Language) (s : Script) (c : Nat) : Str :=
  match table.find? (fun r => r.1 == lower c), column l s with
  | some r, some k => r.2.getD k []
  | some r, none => [r.1]
  | none, _ => []

/-- What a word is expected to be spelled as: in the Arabic script the spellings of its letters with
a space between them; in Kannada, Malayalam and Telugu the spellings one after the other without a
zero width non-joiner at the end; elsewhere the spellings one after the other. -/
def spelledOut (l : Language) (s : Script) (x : Str) : Str :=
  match s with
  | .arab => List.intercalate [0x20] (x.map (spelling l s))
  | .knda | .mlym | .telu =>
    let t := x.flatMap (spelling l s)
    if t.getLast? = some 0x200C then t.dropLast else t
  | _ => x.flatMap (spelling l s)

theorem table_keys : table.map Prod.fst = (List.range 26).map (· + 97) := by decide +kernel

theorem keys_spellouts (l : Language) (s : Script) : Keys (spellouts l s) := by
  unfold Keys spellouts
  rw [List.map_map]
  exact table_keys

/-- Executable version of `textChar`. -/
def textCharB (c : Nat) : Bool := Utf8.isScalar c && c != 0

theorem table_text : (table.all fun r => textCharB r.1 && r.2.all fun v => v.all textCharB) = true := by
  decide +kernel

theorem textCharB_iff {c : Nat} : textCharB c = true ↔ textChar c := by
  simp [textCharB, textChar]

theorem spellouts_text (l : Language) (s : Script) : ∀ p ∈ spellouts l s, Over textChar p.2 := by
  intro p hp
  obtain ⟨r, hr, rfl⟩ := List.mem_map.1 hp
  have h := List.all_eq_true.1 table_text r hr
  simp only [Bool.and_eq_true, List.all_eq_true] at h
  have hb : Over textChar (match column l s with | some k => r.2.getD k [] | none => [r.1]) := by
    intro c hc
    split at hc
    · rename_i k _
      rw [List.getD_eq_getElem?_getD] at hc
      cases e : r.2[k]? with
      | none => rw [e] at hc; cases hc
      | some v =>
        rw [e] at hc
        exact textCharB_iff.1 (h.2 v (List.mem_of_getElem? e) c hc)
    · rw [List.mem_singleton.1 hc]; exact textCharB_iff.1 h.1
  intro c hc
  simp only [getSpellout] at hc
  split at hc
  · rcases List.mem_append.1 hc with hc | hc
    · exact hb c hc
    · rw [List.mem_singleton.1 hc]; exact ⟨by decide, by decide⟩
  · exact hb c hc

theorem find_map (q : Nat → Bool) (f : Nat × List Str → Str) (rows : List (Nat × List Str)) :
    (rows.map fun r => (r.1, f r)).find? (fun p => q p.1) =
      (rows.find? fun r => q r.1).map fun r => (r.1, f r) := by
  induction rows with
  | nil => rfl
  | cons r rows ih =>
    rw [List.map_cons, List.find?_cons, List.find?_cons]
    cases h : q r.1 with
    | true => rfl
    | false => exact ih

theorem entry_spelling (l : Language) (s : Script) {c : Nat} (hc : isLetter c = true) :
    entryIn (spellouts l s) c = spelling l s c ++ (if s = .arab then [0x20] else []) := by
  obtain ⟨p, hp, e⟩ := letter_mem (keys_spellouts l s) hc
  have hf := find_of_nodup (keys_nodup (keys_spellouts l s)) hp
  unfold entryIn spelling
  rw [← e, hf]
  unfold spellouts at hf
  rw [find_map (fun n => n == p.1)] at hf
  cases k : table.find? (fun r => r.1 == p.1) with
  | none => rw [k] at hf; cases hf
  | some r =>
    rw [k] at hf
    cases hf
    simp only [getSpellout]
    cases column l s with
    | none => split <;> simp [SPACE]
    | some n => split <;> simp [SPACE]

theorem flatMap_entry (l : Language) (s : Script) {x : Str} (hx : ∀ c ∈ x, isLetter c = true)
    (hs : s ≠ .arab) : x.flatMap (entryIn (spellouts l s)) = x.flatMap (spelling l s) := by
  induction x with
  | nil => rfl
  | cons c x ih =>
    rw [List.flatMap_cons, List.flatMap_cons, ih fun d hd => hx d (List.mem_cons_of_mem _ hd),
      entry_spelling l s (hx c (by simp)), if_neg hs, List.append_nil]

theorem dropSep_join (vs : List Str) (c : Nat) :
    dropSep c (vs.flatMap fun v => v ++ [c]) = List.intercalate [c] vs := by
  induction vs with
  | nil => rfl
  | cons v vs ih =>
    cases vs with
    | nil => simp [dropSep, List.intercalate]
    | cons w vs =>
      have hne : (w :: vs).flatMap (fun v => v ++ [c]) ≠ [] := by simp
      rw [List.flatMap_cons, List.append_assoc]
      have key : ∀ t : Str, t ≠ [] → dropSep c (v ++ ([c] ++ t)) = v ++ ([c] ++ dropSep c t) := by
        intro t ht
        unfold dropSep
        rw [← List.append_assoc, List.getLast?_append_of_ne_nil _ ht]
        split
        · rw [List.dropLast_append_of_ne_nil ht, List.append_assoc]
        · rw [List.append_assoc]
      rw [key _ hne, ih]
      simp [List.intercalate, List.intersperse]

/-- C110: in both token types and for every language and script, a text is spelled out if and only
if it consists of ASCII letters, and then in exactly one way: the spellings of its letters from the
table, joined as `spelledOut` says. -/
theorem C110_speller (m : Mode) (l : Language) (s : Script) (x y : Str) :
    speller m l s x y ↔ (∀ c ∈ x, isLetter c = true) ∧ y = m.labels (spelledOut l s x) := by
  have hk := keys_spellouts l s
  have ht := spellouts_text l s
  have hsp : textChar SPACE := ⟨by decide, by decide⟩
  have hzw : textChar Spellout.ZWNJ := ⟨by decide, by decide⟩
  unfold speller
  by_cases h1 : s = .arab
  · subst h1
    simp only [if_true]
    rw [separated_iff m hk ht hsp]
    refine and_congr_right fun hx => ?_
    have e : x.flatMap (entryIn (spellouts l .arab)) =
        (x.map (spelling l .arab)).flatMap fun v => v ++ [SPACE] := by
      rw [List.flatMap_map]
      induction x with
      | nil => rfl
      | cons c x ih =>
        rw [List.flatMap_cons, List.flatMap_cons, ih fun d hd => hx d (List.mem_cons_of_mem _ hd),
          entry_spelling l _ (hx c (by simp))]
        rfl
    rw [e, dropSep_join]
    rfl
  · simp only [if_neg h1]
    by_cases h2 : s = .knda ∨ s = .mlym ∨ s = .telu
    · rw [if_pos h2, separated_iff m hk ht hzw]
      refine and_congr_right fun hx => ?_
      rw [flatMap_entry l s hx h1]
      rcases h2 with rfl | rfl | rfl <;> rfl
    · rw [if_neg h2, spellFst_iff m hk]
      refine and_congr_right fun hx => ?_
      rw [flatMap_entry l s hx h1]
      cases s <;> first | rfl | simp at h1 h2

/-- C110: upper and lower case letters are spelled in the same way. -/
theorem C110_case (m : Mode) (l : Language) (s : Script) {x x' : Str}
    (hx : ∀ c ∈ x, isLetter c = true) (hx' : ∀ c ∈ x', isLetter c = true)
    (h : x.map lower = x'.map lower) (y : Str) : speller m l s x y ↔ speller m l s x' y := by
  have e : ∀ z : Str, (∀ c ∈ z, isLetter c = true) →
      z.map (spelling l s) = (z.map lower).map (spelling l s) := by
    intro z hz
    rw [List.map_map]
    refine List.map_congr_left fun c hc => ?_
    have hl := hz c hc
    simp only [isLetter, Bool.or_eq_true, Bool.and_eq_true, decide_eq_true_eq] at hl
    have : lower (lower c) = lower c := by
      unfold lower
      repeat' split
      all_goals omega
    simp only [Function.comp_apply, spelling, this]
  have f : ∀ z : Str, z.flatMap (spelling l s) = (z.map (spelling l s)).flatten := by
    intro z; rw [List.flatMap_def]
  have g : spelledOut l s x = spelledOut l s x' := by
    have e' : x.map (spelling l s) = x'.map (spelling l s) := by rw [e x hx, e x' hx', h]
    unfold spelledOut
    simp only [f, e']
  rw [C110_speller, C110_speller, g]
  exact ⟨fun k => ⟨hx', k.2⟩, fun k => ⟨hx, k.2⟩⟩

/-- C110: for a language and a script that the table has no column for, outside the Arabic script,
the word is returned in lower case. -/
theorem C110_default (m : Mode) {l : Language} {s : Script} (hc : column l s = none) (hs : s ≠ .arab)
    {x : Str} (hx : ∀ c ∈ x, isLetter c = true) (y : Str) :
    speller m l s x y ↔ y = x.map lower := by
  have h1 : ∀ z : Str, (∀ c ∈ z, isLetter c = true) → z.flatMap (spelling l s) = z.map lower := by
    intro z
    induction z with
    | nil => intro _; rfl
    | cons c z ih =>
      intro hz
      rw [List.flatMap_cons, List.map_cons, ih fun d hd => hz d (List.mem_cons_of_mem _ hd)]
      have he := entry_spelling l s (hz c (by simp))
      rw [if_neg hs, List.append_nil] at he
      obtain ⟨p, hp, e⟩ := letter_mem (keys_spellouts l s) (hz c (by simp))
      rw [← he, entryIn_of (keys_spellouts l s) hp e.symm]
      obtain ⟨r, _, rfl⟩ := List.mem_map.1 hp
      simp only [getSpellout, hc, if_neg hs]
      rw [← e]
      rfl
  have h2 : ∀ c ∈ x.map lower, c < 128 := by
    intro c hc
    obtain ⟨d, hd, rfl⟩ := List.mem_map.1 hc
    have := hx d hd
    simp only [isLetter, Bool.or_eq_true, Bool.and_eq_true, decide_eq_true_eq] at this
    unfold lower; split <;> omega
  have h3 : spelledOut l s x = x.map lower := by
    have hz : (x.map lower).getLast? ≠ some 0x200C := by
      intro h
      have := h2 _ (List.mem_of_getLast? h)
      omega
    cases s <;> simp only [spelledOut, h1 x hx] <;> first | rfl | rw [if_neg hz] | simp at hs
  rw [C110_speller, h3, labels_ascii m h2]
  exact ⟨fun k => k.2, fun k => ⟨hx, k⟩⟩

/-- "PDF" in Hindi is पीडीएफ़, in Malayalam പിഡിഎഫ് without the joiner at the end, and in Urdu پی ڈی ایف. -/
example : speller .utf8 .hi .deva a!"PDF" [0x92A, 0x940, 0x921, 0x940, 0x90F, 0x92B, 0x93C] ∧
    speller .utf8 .ml .mlym a!"pdf" [0xD2A, 0xD3F, 0xD21, 0xD3F, 0xD0E, 0xD2B, 0xD4D] ∧
    speller .utf8 .ur .arab a!"pdf"
      [0x67E, 0x6CC, 0x20, 0x688, 0x6CC, 0x20, 0x627, 0x6CC, 0x641] ∧
    ¬ ∃ y, speller .byte .hi .deva a!"a1" y := by
  refine ⟨(C110_speller ..).2 ⟨by decide, by decide +kernel⟩,
    (C110_speller ..).2 ⟨by decide, by decide +kernel⟩,
    (C110_speller ..).2 ⟨by decide, by decide +kernel⟩, ?_⟩
  rintro ⟨y, h⟩
  exact absurd (((C110_speller ..).1 h).1 0x31 (by simp)) (by decide)

/-! ## C111 -/

/-- Separator that may be deleted at the end of the text; for the other scripts a number that occurs
in no text. -/
def sepOf : Script → Nat
  | .arab => 0x20
  | .knda | .mlym | .telu => 0x200C
  | _ => 0

theorem sard_all : (langScripts.all fun p =>
    let code := (spellouts p.1 p.2).map Prod.snd
    sardOk code (suffixes code) (sepOf p.2)) = true := by decide +kernel

theorem no_zero {t : Str} (h : Over textChar t) : dropSep 0 t = t := by
  unfold dropSep
  rw [if_neg]
  intro k
  exact (h 0 (List.mem_of_getLast? k)).2 rfl

theorem entries_text (l : Language) (s : Script) {x : Str} (hx : ∀ c ∈ x, isLetter c = true) :
    Over textChar (x.flatMap (entryIn (spellouts l s))) := by
  intro c hc
  obtain ⟨d, hd, hc⟩ := List.mem_flatMap.1 hc
  obtain ⟨p, hp, e⟩ := entryIn_mem (keys_spellouts l s) (hx d hd)
  rw [e] at hc
  exact spellouts_text l s p hp c hc

/-- The speller in terms of the entries of the list. -/
theorem speller_entries (m : Mode) (l : Language) (s : Script) (x y : Str) :
    speller m l s x y ↔ (∀ c ∈ x, isLetter c = true) ∧
      y = m.labels (dropSep (sepOf s) (x.flatMap (entryIn (spellouts l s)))) := by
  have hk := keys_spellouts l s
  have ht := spellouts_text l s
  have hsp : textChar SPACE := ⟨by decide, by decide⟩
  have hzw : textChar Spellout.ZWNJ := ⟨by decide, by decide⟩
  unfold speller
  by_cases h1 : s = .arab
  · subst h1
    simp only [if_true]
    rw [separated_iff m hk ht hsp]
    rfl
  · simp only [if_neg h1]
    by_cases h2 : s = .knda ∨ s = .mlym ∨ s = .telu
    · rw [if_pos h2, separated_iff m hk ht hzw]
      rcases h2 with rfl | rfl | rfl <;> rfl
    · rw [if_neg h2, spellFst_iff m hk]
      refine and_congr_right fun hx => ?_
      have : sepOf s = 0 := by cases s <;> first | rfl | simp at h1 h2
      rw [this, no_zero (entries_text l s hx)]

theorem dropSep_text {c : Nat} {t : Str} (h : Over textChar t) : Over textChar (dropSep c t) :=
  fun d hd => h d ((dropSep_prefix c t).subset hd)

/-- C111: an exported speller is uniquely decodable: two words that are spelled out as the same text
have the same number of letters, and letters at the same position have the same spelling. -/
theorem C111_decodable (m : Mode) {l : Language} {s : Script} (hls : (l, s) ∈ langScripts)
    {x x' y : Str} (h : speller m l s x y) (h' : speller m l s x' y) :
    x.map (spelling l s) = x'.map (spelling l s) := by
  rw [speller_entries] at h h'
  have e := labels_inj m (dropSep_text (entries_text l s h.1)) (dropSep_text (entries_text l s h'.1))
    (h.2.symm.trans h'.2)
  have S := sard_of (List.all_eq_true.1 sard_all _ hls)
  rw [List.flatMap_def, List.flatMap_def] at e
  have hm : ∀ z : Str, (∀ c ∈ z, isLetter c = true) →
      ∀ u ∈ z.map (entryIn (spellouts l s)), u ∈ (spellouts l s).map Prod.snd := by
    intro z hz u hu
    obtain ⟨c, hc, rfl⟩ := List.mem_map.1 hu
    obtain ⟨p, hp, e⟩ := entryIn_mem (keys_spellouts l s) (hz c hc)
    rw [e]
    exact List.mem_map_of_mem hp
  have e' := sard_dropSep S (hm x h.1) (hm x' h'.1) e
  have hc : ∀ z : Str, (∀ c ∈ z, isLetter c = true) → z.map (entryIn (spellouts l s)) =
      (z.map (spelling l s)).map fun v => v ++ (if s = .arab then [0x20] else []) := by
    intro z hz
    rw [List.map_map]
    exact List.map_congr_left fun c hc => entry_spelling l s (hz c hc)
  rw [hc x h.1, hc x' h'.1] at e'
  exact (List.map_injective_iff.2 fun a b h => List.append_cancel_right h) e'

theorem cells_distinct : (langScripts.all fun p => (p == (.sd, .arab)) || (p == (.ta, .taml)) ||
    (List.range 26).all fun a => (List.range 26).all fun b =>
      Nat.beq a b || !(seq (spelling p.1 p.2 (a + 97)) (spelling p.1 p.2 (b + 97)))) = true := by
  decide +kernel

theorem spelling_lower (l : Language) (s : Script) {c : Nat} (hc : isLetter c = true) :
    spelling l s (lower c) = spelling l s c := by
  simp only [isLetter, Bool.or_eq_true, Bool.and_eq_true, decide_eq_true_eq] at hc
  have : lower (lower c) = lower c := by
    unfold lower
    repeat' split
    all_goals omega
  simp only [spelling, this]

theorem spelling_inj {l : Language} {s : Script} (hls : (l, s) ∈ langScripts)
    (h1 : (l, s) ≠ (.sd, .arab)) (h2 : (l, s) ≠ (.ta, .taml)) {a b : Nat} (ha : isLetter a = true)
    (hb : isLetter b = true) (h : spelling l s a = spelling l s b) : lower a = lower b := by
  have k := List.all_eq_true.1 cells_distinct _ hls
  rw [← spelling_lower l s ha, ← spelling_lower l s hb] at h
  have hr : ∀ c, isLetter c = true → lower c - 97 ∈ List.range 26 ∧ lower c - 97 + 97 = lower c := by
    intro c hc
    simp only [isLetter, Bool.or_eq_true, Bool.and_eq_true, decide_eq_true_eq] at hc
    rw [List.mem_range]
    unfold lower
    split <;> omega
  simp only [Bool.or_eq_true, beq_iff_eq, h1, h2, false_or, List.all_eq_true] at k
  have := k _ (hr a ha).1 _ (hr b hb).1
  rw [(hr a ha).2, (hr b hb).2, h, (NT.seq_eq).2 rfl] at this
  simp only [Bool.not_true, Bool.false_eq_true, or_false, Nat.beq_eq] at this
  have e1 := (hr a ha).2
  have e2 := (hr b hb).2
  omega

/-- C111: except in Sindhi and Tamil, the spelled out text determines the word up to case. -/
theorem C111_reversible_partial (m : Mode) {l : Language} {s : Script} (hls : (l, s) ∈ langScripts)
    (h1 : (l, s) ≠ (.sd, .arab)) (h2 : (l, s) ≠ (.ta, .taml)) {x x' y : Str}
    (h : speller m l s x y) (h' : speller m l s x' y) : x.map lower = x'.map lower := by
  have e := C111_decodable m hls h h'
  have hx := ((C110_speller ..).1 h).1
  have hx' := ((C110_speller ..).1 h').1
  clear h h'
  induction x generalizing x' with
  | nil =>
    cases x' with
    | nil => rfl
    | cons b x' => cases e
  | cons a x ih =>
    cases x' with
    | nil => cases e
    | cons b x' =>
      rw [List.map_cons, List.map_cons, List.cons.injEq] at e
      rw [List.map_cons, List.map_cons, spelling_inj hls h1 h2 (hx a (by simp)) (hx' b (by simp)) e.1,
        ih e.2 (fun c hc => hx c (List.mem_cons_of_mem _ hc))
          fun c hc => hx' c (List.mem_cons_of_mem _ hc)]

/-- C111 fails in Sindhi, where `a` and `e`, and `g` and `j`, have the same spelling, and in Tamil,
where `b` and `p`, and `d` and `t`, have the same spelling. -/
theorem C111_reversible_violated (m : Mode) :
    (∃ y, speller m .sd .arab a!"a" y ∧ speller m .sd .arab a!"e" y) ∧
    (∃ y, speller m .sd .arab a!"g" y ∧ speller m .sd .arab a!"j" y) ∧
    (∃ y, speller m .ta .taml a!"b" y ∧ speller m .ta .taml a!"p" y) ∧
    (∃ y, speller m .ta .taml a!"d" y ∧ speller m .ta .taml a!"t" y) := by
  have key : ∀ (l : Language) (s : Script) (a b : Nat), isLetter a = true → isLetter b = true →
      spelledOut l s [a] = spelledOut l s [b] → ∃ y, speller m l s [a] y ∧ speller m l s [b] y := by
    intro l s a b ha hb e
    refine ⟨_, (C110_speller ..).2 ⟨?_, rfl⟩, (C110_speller ..).2 ⟨?_, by rw [e]⟩⟩
    · intro c hc; rw [List.mem_singleton.1 hc]; exact ha
    · intro c hc; rw [List.mem_singleton.1 hc]; exact hb
  exact ⟨key _ _ _ _ (by decide) (by decide) (by decide +kernel),
    key _ _ _ _ (by decide) (by decide) (by decide +kernel),
    key _ _ _ _ (by decide) (by decide) (by decide +kernel),
    key _ _ _ _ (by decide) (by decide) (by decide +kernel)⟩

/-- "ae" and "AE" have the same Hindi spelling; it is not the spelling of "ea". -/
example : ∃ y, speller .byte .hi .deva a!"ae" y ∧ speller .byte .hi .deva a!"AE" y ∧
    ¬ speller .byte .hi .deva a!"ea" y := by
  refine ⟨_, (C110_speller ..).2 ⟨by decide, rfl⟩, (C110_speller ..).2 ⟨by decide, by decide +kernel⟩, ?_⟩
  intro h
  have := C111_reversible_partial .byte (l := .hi) (s := .deva) (by decide) (by decide) (by decide)
    ((C110_speller .byte .hi .deva a!"ae" _).2 ⟨by decide, rfl⟩) h
  exact absurd this (by decide)

/-! ## C112 -/

/-- Exported Brahmic spellers without joiners, and the data of their scripts. -/
def plainScripts : List (Language × Script × BrahmicData) := [
  (.bn, .beng, Data.beng), (.gu, .gujr, Data.gujr), (.hi, .deva, Data.deva), (.mr, .deva, Data.deva),
  (.or, .orya, Data.orya), (.pa, .guru, Data.guru), (.si, .sinh, Data.sinh), (.ta, .taml, Data.taml)]

/-- Exported Brahmic spellers that write a zero width non-joiner between letters. -/
def joinerScripts : List (Language × Script × BrahmicData) := [
  (.kn, .knda, Data.knda), (.ml, .mlym, Data.mlym), (.te, .telu, Data.telu)]

theorem plain_wf : (plainScripts.all fun p => (spellouts p.1 p.2.1).all fun e =>
    RE.accepts (reWellFormed p.2.2) e.2) = true := by decide +kernel

theorem plain_script : (plainScripts.all fun p => !(p.2.1 == .arab) && Nat.beq (sepOf p.2.1) 0) = true := by
  decide +kernel

/-- C112: a word spelled out in a Brahmic script without joiners is well-formed text of the script. -/
theorem C112_wellformed_partial {l : Language} {s : Script} {d : BrahmicData}
    (h : (l, s, d) ∈ plainScripts) {x y : Str} (hy : speller .utf8 l s x y) : wellFormed d y := by
  have hw := List.all_eq_true.1 plain_wf _ h
  have hp := List.all_eq_true.1 plain_script _ h
  simp only [Bool.and_eq_true, Nat.beq_eq] at hp
  obtain ⟨hx, rfl⟩ := (speller_entries ..).1 hy
  rw [hp.2, no_zero (entries_text l s hx)]
  show wellFormed d (x.flatMap (entryIn (spellouts l s)))
  clear hy
  induction x with
  | nil => exact (C15_concat d).1
  | cons c x ih =>
    rw [List.flatMap_cons]
    refine (C15_concat d).2 _ _ ?_ (ih fun e he => hx e (List.mem_cons_of_mem _ he))
    obtain ⟨p, hp, e⟩ := entryIn_mem (keys_spellouts l s) (hx c (by simp))
    rw [e, ← C16_recogniser]
    exact List.all_eq_true.1 hw p hp

/-- No left-hand side of the table starts with the pair or is the first character alone. -/
def nfcPair (d : BrahmicData) (x y : Nat) : Bool :=
  d.nfc.all fun p => match p.1 with
    | [] => false
    | [a] => !(Nat.beq a x)
    | a :: b :: _ => !(Nat.beq a x && Nat.beq b y)

def nfcLast (d : BrahmicData) (x : Nat) : Bool :=
  d.nfc.all fun p => match p.1 with
    | [] => false
    | [a] => !(Nat.beq a x)
    | _ :: _ :: _ => true

def pairsOk (d : BrahmicData) : Str → Bool
  | [] => true
  | [x] => nfcLast d x
  | x :: y :: t => nfcPair d x y && pairsOk d (y :: t)

theorem pairsOk_noLhs {d : BrahmicData} {t : Str} (h : pairsOk d t = true) :
    ∀ p ∈ d.nfc, p.1 ≠ [] → ¬ p.1 <:+: t := by
  intro p hp hne
  induction t with
  | nil => intro k; exact hne (List.infix_nil.1 k)
  | cons x t ih =>
    intro k
    rcases List.infix_cons_iff.1 k with k | k
    · cases t with
      | nil =>
        have hl := List.all_eq_true.1 h p hp
        match hq : p.1, hne, k, hl with
        | [a], _, k, hl =>
          have := (List.cons_prefix_cons.1 k).1
          simp [this] at hl
        | a :: b :: q, _, k, _ => simpa using k.length_le
      | cons y t =>
        simp only [pairsOk, Bool.and_eq_true] at h
        have hl := List.all_eq_true.1 h.1 p hp
        match hq : p.1, hne, k, hl with
        | [a], _, k, hl =>
          have := (List.cons_prefix_cons.1 k).1
          simp [this] at hl
        | a :: b :: q, _, k, hl =>
          have k1 := List.cons_prefix_cons.1 k
          have k2 := (List.cons_prefix_cons.1 k1.2).1
          simp [k1.1, k2] at hl
    · refine ih ?_ k
      cases t with
      | nil => rfl
      | cons y t =>
        simp only [pairsOk, Bool.and_eq_true] at h
        exact h.2

theorem pairsOk_append {d : BrahmicData} {h : Nat} {b : Str} : ∀ {a : Str},
    pairsOk d (a ++ [h]) = true → pairsOk d (h :: b) = true → pairsOk d (a ++ h :: b) = true
  | [], _, hb => hb
  | [x], ha, hb => by
    simp only [List.cons_append, List.nil_append, pairsOk, Bool.and_eq_true] at ha ⊢
    exact ⟨ha.1, hb⟩
  | x :: y :: a, ha, hb => by
    simp only [List.cons_append, pairsOk, Bool.and_eq_true] at ha ⊢
    exact ⟨ha.1, pairsOk_append (a := y :: a) ha.2 hb⟩

theorem nfc_pairs : ((plainScripts ++ joinerScripts).all fun p =>
    (spellouts p.1 p.2.1).all fun e => pairsOk p.2.2 e.2 && (spellouts p.1 p.2.1).all fun f =>
      match f.2 with
      | [] => false
      | h :: _ => pairsOk p.2.2 (e.2 ++ [h])) = true := by decide +kernel

theorem entries_pairs {l : Language} {s : Script} {d : BrahmicData}
    (h : (l, s, d) ∈ plainScripts ++ joinerScripts) {x : Str} (hx : ∀ c ∈ x, isLetter c = true) :
    pairsOk d (x.flatMap (entryIn (spellouts l s))) = true := by
  have hw := List.all_eq_true.1 nfc_pairs _ h
  induction x with
  | nil => rfl
  | cons c x ih =>
    have hx' : ∀ e ∈ x, isLetter e = true := fun e he => hx e (List.mem_cons_of_mem _ he)
    obtain ⟨p, hp, e⟩ := entryIn_mem (keys_spellouts l s) (hx c (by simp))
    have k := List.all_eq_true.1 hw p hp
    rw [Bool.and_eq_true] at k
    rw [List.flatMap_cons, e]
    cases x with
    | nil => rw [List.flatMap_nil, List.append_nil]; exact k.1
    | cons b x =>
      obtain ⟨q, hq, e'⟩ := entryIn_mem (keys_spellouts l s) (hx' b (by simp))
      have k2 := List.all_eq_true.1 k.2 q hq
      have ih := ih hx'
      rw [List.flatMap_cons, e'] at ih ⊢
      cases hv : q.2 with
      | nil => rw [hv] at k2; cases k2
      | cons h t =>
        rw [hv] at k2 ih
        exact pairsOk_append k2 ih

theorem brahmic_script {l : Language} {s : Script} {d : BrahmicData}
    (h : (l, s, d) ∈ plainScripts ++ joinerScripts) : d ∈ Data.scripts := by
  simp only [plainScripts, joinerScripts, List.cons_append, List.nil_append, List.mem_cons,
    Prod.mk.injEq, List.not_mem_nil, or_false] at h
  simp only [Data.scripts, List.mem_cons, List.not_mem_nil, or_false]
  rcases h with h | h | h | h | h | h | h | h | h | h | h <;> simp [h.2.2]

/-- C112: NFC leaves a word spelled out in a Brahmic script unchanged. -/
theorem C112_nfc {l : Language} {s : Script} {d : BrahmicData}
    (h : (l, s, d) ∈ plainScripts ++ joinerScripts) {σ : Nat → Prop} (hσ : Contains σ d) {R : Rel}
    (hR : nfcFst d σ = some R) {x y : Str} (hy : speller .utf8 l s x y) (ho : Over σ y) (t : Str) :
    R y t ↔ t = y := by
  have hd := brahmic_script h
  obtain ⟨hx, e⟩ := (speller_entries ..).1 hy
  have hno : ∀ p ∈ d.nfc, ¬ p.1 <:+: y := by
    intro p hp k
    have hp0 : p.1 ≠ [] := by
      have := cleanRules_nonempty (nfc_clean hd) p hp
      exact this
    refine pairsOk_noLhs (entries_pairs h hx) p hp hp0 (k.trans ?_)
    rw [e]
    exact (dropSep_prefix _ _).isInfix
  exact (C08_nfc_complete.1 d hd hσ.writes R hR).2 y ho hno t

/-- C112: a spelled out word that is well formed survives conversion to ISO and back unchanged. -/
theorem C112_round_trip {l : Language} {s : Script} {d : BrahmicData}
    (h : (l, s, d) ∈ plainScripts ++ joinerScripts) {σ : Nat → Prop} (hσ : Contains σ d) {R : Rel}
    (hR : nfcFst d σ = some R) {x y : Str} (hy : speller .utf8 l s x y) (hw : wellFormed d y) :
    ∃ z, (∀ u, WRel.Best (fromScript d R) y u ↔ u = z) ∧ ∀ u, WRel.Best (toScript d R) z u ↔ u = y := by
  have hd := brahmic_script h
  obtain ⟨t, z, h1, h2, h3⟩ := C21_round_trip hd hσ hR hw
  have ho : Over σ y := fun c hc => hσ c (IsoWf.wf_over hd hw c hc)
  have e : t = y := (C112_nfc h hσ hR hy ho t).1 ((h1 t).2 rfl)
  exact ⟨z, h2, by rw [← e]; exact h3⟩

/-! ### Joiners -/

/-- The first piece of the text is a syllable that starts with a consonant cluster. -/
inductive Syl (d : BrahmicData) : Str → Prop
  | syllable (cl sign len coda dead : Str) : ClusterSpec d cl → Optional d.vowelSign sign →
      (d.noInherentVowel = true → Listed d.vowelSign sign) → Optional d.vowelLength len →
      Optional d.coda coda → Optional d.deadConsonant dead →
      Syl d (cl ++ sign ++ len ++ coda ++ dead)
  | virama (cl v dead : Str) : ClusterSpec d cl → Listed d.virama v →
      Optional d.deadConsonant dead → Syl d (cl ++ v ++ dead)

theorem Syl.akshara {d : BrahmicData} {q : Str} (h : Syl d q) : AksharaSpec d q := by
  cases h with
  | syllable cl sign len coda dead h1 h2 h3 h4 h5 h6 =>
    exact .syllable cl sign len coda dead h1 h2 h3 h4 h5 h6
  | virama cl v dead h1 h2 h3 => exact .virama cl v dead h1 h2 h3

theorem Syl.link {d : BrahmicData} {c w q : Str} (hc : Listed d.consonant c)
    (hw : Listed d.preserve w) (h : Syl d q) : Syl d (c ++ w ++ q) := by
  have k : ∀ cl, ClusterSpec d cl → ClusterSpec d (c ++ w ++ cl) := by
    intro cl hcl
    have := ClusterSpec.link c [] w cl hc (Or.inl rfl) (Or.inr hw) hcl
    rwa [List.append_nil] at this
  cases h with
  | syllable cl sign len coda dead h1 h2 h3 h4 h5 h6 =>
    have := Syl.syllable _ sign len coda dead (k cl h1) h2 h3 h4 h5 h6
    simpa only [List.append_assoc] using this
  | virama cl v dead h1 h2 h3 =>
    have := Syl.virama _ v dead (k cl h1) h2 h3
    simpa only [List.append_assoc] using this

/-- Independent vowel, standalone sign or accepted exception starting with the character. -/
def otherStart (d : BrahmicData) (c : Nat) : Bool :=
  (d.vowel ++ d.standalone ++ d.accept).any fun r =>
    match r.1 with
    | [] => true
    | a :: _ => Nat.beq a c

theorem otherStart_row {d : BrahmicData} {c : Nat} (h : otherStart d c = false) {q t : Str} {a : Nat}
    (ha : a = c) (hq : Listed (d.vowel ++ d.standalone ++ d.accept) q) : q ≠ [] ∧ q ≠ a :: t := by
  obtain ⟨r, hr, rfl⟩ := hq
  have := List.any_eq_false.1 h r hr
  constructor
  · intro e; rw [e] at this; simp at this
  · intro e; rw [e, ha] at this; simp at this

/-- A well-formed text whose first character starts no vowel, sign or exception starts with a
consonant syllable. -/
theorem starts_syl {d : BrahmicData} {c : Nat} {t : Str} (h : wellFormed d (c :: t))
    (hc : otherStart d c = false) : ∃ q r, c :: t = q ++ r ∧ Syl d q ∧ wellFormed d r := by
  obtain ⟨ps, e, hps⟩ := (C16_grammar d _).1 h
  have hr : ∀ q, Listed d.vowel q ∨ Listed d.standalone q ∨ Listed d.accept q →
      Listed (d.vowel ++ d.standalone ++ d.accept) q := by
    rintro q (⟨r, hr, rfl⟩ | ⟨r, hr, rfl⟩ | ⟨r, hr, rfl⟩)
    · exact ⟨r, by simp [hr], rfl⟩
    · exact ⟨r, by simp [hr], rfl⟩
    · exact ⟨r, by simp [hr], rfl⟩
  have no : ∀ q r : Str, Listed d.vowel q ∨ Listed d.standalone q ∨ Listed d.accept q →
      c :: t ≠ q ++ r := by
    intro q r hq e
    have := otherStart_row (t := q.tail) hc rfl (hr q hq)
    cases q with
    | nil => exact this.1 rfl
    | cons a q =>
      rw [List.cons_append, List.cons.injEq] at e
      rw [e.1] at this
      exact this.2 rfl
  cases ps with
  | nil => cases e
  | cons p ps =>
    rw [List.flatten_cons] at e
    have hw : wellFormed d ps.flatten :=
      (C16_grammar d _).2 ⟨ps, rfl, fun q hq => hps q (List.mem_cons_of_mem _ hq)⟩
    rcases hps p (by simp) with hp | hp | hp
    · cases hp with
      | vowel v len coda dead hv _ _ _ =>
        exact absurd (e.trans (by simp only [List.append_assoc]))
          (no v (len ++ (coda ++ (dead ++ ps.flatten))) (Or.inl hv))
      | syllable cl sign len coda dead h1 h2 h3 h4 h5 h6 =>
        exact ⟨_, _, e, .syllable cl sign len coda dead h1 h2 h3 h4 h5 h6, hw⟩
      | virama cl v dead h1 h2 h3 => exact ⟨_, _, e, .virama cl v dead h1 h2 h3, hw⟩
    · exact absurd e (no p _ (Or.inr (Or.inl hp)))
    · exact absurd e (no p _ (Or.inr (Or.inr hp)))

/-- The spelling is well formed and does not end in the joiner, or it is well-formed text followed by
a consonant, the virama and the joiner, well formed without the joiner. -/
def entryOk (d : BrahmicData) (v : Str) : Bool :=
  match v.reverse with
  | z :: w :: k :: u =>
    bif Nat.beq z 0x200C then
      RE.accepts (reWellFormed d) u.reverse && listedB d.consonant k &&
        (d.preserve.any fun r => seq r.1 [w, z]) && RE.accepts (reWellFormed d) (u.reverse ++ [k, w])
    else RE.accepts (reWellFormed d) v
  | z :: _ => RE.accepts (reWellFormed d) v && !(Nat.beq z 0x200C)
  | [] => false

/-- The spelling starts with an independent vowel, or with a character that starts a consonant. -/
def headOk (d : BrahmicData) (v : Str) : Bool :=
  match v with
  | h :: _ => listedB d.vowel h || !(otherStart d h)
  | [] => false

theorem joiner_ok : (joinerScripts.all fun p => Nat.beq (sepOf p.2.1) 0x200C && !(p.2.1 == .arab) &&
    ((spellouts p.1 p.2.1).all fun e => entryOk p.2.2 e.2 && headOk p.2.2 e.2) &&
    RE.noPair (fun x y => Nat.beq x 0x200C && listedB p.2.2.vowel y) (reWellFormed p.2.2)) = true := by
  decide +kernel

theorem entryOk_cases {d : BrahmicData} {v : Str} (h : entryOk d v = true) :
    (wellFormed d v ∧ v ≠ [] ∧ v.getLast? ≠ some 0x200C) ∨
    ∃ u k w, v = u ++ [k, w, 0x200C] ∧ wellFormed d u ∧ Listed d.consonant [k] ∧
      Listed d.preserve [w, 0x200C] ∧ wellFormed d (u ++ [k, w]) := by
  have hne : ∀ z, z ≠ 0x200C → ∀ u, v.reverse = z :: u → v ≠ [] ∧ v.getLast? ≠ some 0x200C := by
    intro z hz u e
    have e' : v = u.reverse ++ [z] := by
      rw [← List.reverse_reverse v, e, List.reverse_cons]
    rw [e']
    simp [hz]
  unfold entryOk at h
  split at h
  · rename_i z w k u e
    rw [cond_eq_ite] at h
    split at h
    · rename_i hz
      have hz : z = 0x200C := by simpa using hz
      subst hz
      simp only [Bool.and_eq_true, List.any_eq_true, NT.seq_eq, C16_recogniser, listedB_iff] at h
      obtain ⟨⟨⟨h1, h2⟩, r, hr, h3⟩, h4⟩ := h
      refine Or.inr ⟨u.reverse, k, w, ?_, h1, h2, ⟨r, hr, h3.symm⟩, h4⟩
      rw [← List.reverse_reverse v, e]
      simp
    · rename_i hz
      exact Or.inl ⟨(C16_recogniser d v).1 h, hne z (by simpa using hz) _ e⟩
  · rename_i z u _ e
    simp only [Bool.and_eq_true, Bool.not_eq_true', C16_recogniser] at h
    exact Or.inl ⟨h.1, hne z (by intro hz; rw [hz] at h; exact absurd h.2 (by decide)) _ e⟩
  · cases h

theorem dropSep_right {c : Nat} {v t : Str} (ht : t ≠ []) : dropSep c (v ++ t) = v ++ dropSep c t := by
  unfold dropSep
  rw [List.getLast?_append_of_ne_nil _ ht]
  split
  · rw [List.dropLast_append_of_ne_nil ht]
  · rfl

theorem entryOk_head {d : BrahmicData} {v : Str} (h : entryOk d v = true) (t : Str) :
    ∃ a r, v.head? = some a ∧ dropSep 0x200C (v ++ t) = a :: r := by
  by_cases ht : t = []
  · subst ht
    rw [List.append_nil]
    rcases entryOk_cases h with ⟨_, hne, hl⟩ | ⟨u, k, w, rfl, _⟩
    · unfold dropSep
      rw [if_neg hl]
      cases v with
      | nil => exact absurd rfl hne
      | cons a v => exact ⟨a, v, rfl, rfl⟩
    · rw [show u ++ [k, w, 0x200C] = (u ++ [k, w]) ++ [0x200C] by simp, dropSep_append]
      cases u with
      | nil => exact ⟨k, [w], rfl, rfl⟩
      | cons a u => exact ⟨a, u ++ [k, w], rfl, rfl⟩
  · rw [dropSep_right ht]
    rcases entryOk_cases h with ⟨_, hne, _⟩ | ⟨u, k, w, rfl, _⟩
    · cases v with
      | nil => exact absurd rfl hne
      | cons a v => exact ⟨a, _, rfl, rfl⟩
    · cases u with
      | nil => exact ⟨k, _, rfl, rfl⟩
      | cons a u => exact ⟨a, _, rfl, rfl⟩

/-- A spelling that ends in the joiner is followed by one that starts with an independent vowel. -/
def Clash (d : BrahmicData) (v w : Str) : Prop :=
  v.getLast? = some 0x200C ∧ ∃ h, w.head? = some h ∧ Listed d.vowel [h]

theorem join_wf {d : BrahmicData} (vs : List Str)
    (hv : ∀ v ∈ vs, entryOk d v = true ∧ headOk d v = true)
    (hc : ∀ p v w q, vs = p ++ v :: w :: q → ¬ Clash d v w) :
    wellFormed d (dropSep 0x200C vs.flatten) := by
  induction vs with
  | nil => exact (C15_concat d).1
  | cons v vs ih =>
    have hv' : ∀ w ∈ vs, entryOk d w = true ∧ headOk d w = true :=
      fun w hw => hv w (List.mem_cons_of_mem _ hw)
    have ih := ih hv' fun p a b q e => hc (v :: p) a b q (by rw [e]; rfl)
    have ho := (hv v (by simp)).1
    cases vs with
    | nil =>
      rw [List.flatten_cons, List.flatten_nil, List.append_nil]
      rcases entryOk_cases ho with ⟨h, _, hl⟩ | ⟨u, k, w, rfl, _, _, _, h⟩
      · unfold dropSep; rw [if_neg hl]; exact h
      · rw [show u ++ [k, w, 0x200C] = (u ++ [k, w]) ++ [0x200C] by simp, dropSep_append]; exact h
    | cons w vs =>
      have how := (hv' w (by simp)).1
      obtain ⟨a, r, hw, e⟩ := entryOk_head how vs.flatten
      rw [← List.flatten_cons] at e
      have hne : (w :: vs).flatten ≠ [] := by
        intro k
        rw [k] at e
        cases e
      rw [List.flatten_cons, dropSep_right hne, e]
      rw [e] at ih
      rcases entryOk_cases ho with ⟨h, _, _⟩ | ⟨u, k, z, rfl, hu, hk, hz, _⟩
      · exact (C15_concat d).2 _ _ h ih
      · have hcl := hc [] _ w vs rfl
        have hh := (hv' w (by simp)).2
        have hs : otherStart d a = false := by
          cases w with
          | nil => cases hw
          | cons a' w =>
            cases hw
            simp only [headOk, Bool.or_eq_true, Bool.not_eq_true', listedB_iff] at hh
            rcases hh with hh | hh
            · exact absurd ⟨by simp, a, rfl, hh⟩ hcl
            · exact hh
        obtain ⟨q, r', e', hq, hr⟩ := starts_syl ih hs
        rw [e', show u ++ [k, z, 0x200C] ++ (q ++ r') = u ++ (([k] ++ [z, 0x200C] ++ q) ++ r') by simp]
        refine (C15_concat d).2 _ _ hu ((C15_concat d).2 _ _ ?_ hr)
        exact (C16_grammar d _).2 ⟨[[k] ++ [z, 0x200C] ++ q], by simp, fun p hp => by
          rw [List.mem_singleton.1 hp]; exact Or.inl (Syl.link hk hz hq).akshara⟩

theorem wf_join {d : BrahmicData}
    (hp : RE.noPair (fun x y => Nat.beq x 0x200C && listedB d.vowel y) (reWellFormed d) = true)
    {vs : List Str} (hv : ∀ v ∈ vs, entryOk d v = true)
    (h : wellFormed d (dropSep 0x200C vs.flatten)) (p : List Str) (v w : Str) (q : List Str)
    (e : vs = p ++ v :: w :: q) : ¬ Clash d v w := by
  rintro ⟨hl, a, ha, hva⟩
  subst e
  obtain ⟨u, rfl⟩ := List.getLast?_eq_some_iff.1 hl
  obtain ⟨b, r, hb, e⟩ := entryOk_head (hv w (by simp)) q.flatten
  rw [ha] at hb
  cases hb
  have hne : w ++ q.flatten ≠ [] := by
    intro k
    rw [k] at e
    cases e
  have e2 : dropSep 0x200C (p ++ (u ++ [0x200C]) :: w :: q).flatten =
      (p.flatten ++ u) ++ 0x200C :: a :: r := by
    rw [List.flatten_append, List.flatten_cons, List.flatten_cons, ← List.append_assoc,
      dropSep_right hne, e]
    simp
  rw [e2, ← reWellFormed_eq] at h
  have := RE.noPair_ok _ _ hp _ _ _ _ h
  rw [(listedB_iff _ _).2 hva] at this
  exact absurd this (by decide)

/-- C112: in Kannada, Malayalam and Telugu a spelled out word is well-formed text if and only if no
letter whose spelling ends in a zero width non-joiner is followed by a letter whose spelling starts
with an independent vowel. -/
theorem C112_joiner {l : Language} {s : Script} {d : BrahmicData} (h : (l, s, d) ∈ joinerScripts)
    {x y : Str} (hy : speller .utf8 l s x y) :
    wellFormed d y ↔ ∀ p a b q, x = p ++ a :: b :: q →
      ¬ ((spelling l s a).getLast? = some 0x200C ∧
        ∃ c, (spelling l s b).head? = some c ∧ Listed d.vowel [c]) := by
  have hj := List.all_eq_true.1 joiner_ok _ h
  simp only [Bool.and_eq_true, Nat.beq_eq, Bool.not_eq_true', beq_eq_false_iff_ne] at hj
  obtain ⟨⟨⟨h1, h2⟩, h3⟩, h4⟩ := hj
  obtain ⟨hx, rfl⟩ := (speller_entries ..).1 hy
  have e : x.flatMap (entryIn (spellouts l s)) = (x.map (spelling l s)).flatten := by
    rw [flatMap_entry l s hx h2, List.flatMap_def]
  have hv : ∀ v ∈ x.map (spelling l s), entryOk d v = true ∧ headOk d v = true := by
    intro v hv
    obtain ⟨c, hc, rfl⟩ := List.mem_map.1 hv
    obtain ⟨p, hp, e⟩ := entryIn_mem (keys_spellouts l s) (hx c hc)
    rw [entry_spelling l s (hx c hc), if_neg h2, List.append_nil] at e
    have := List.all_eq_true.1 h3 p hp
    rw [e]
    exact Bool.and_eq_true_iff.1 this
  show wellFormed d (dropSep (sepOf s) (x.flatMap (entryIn (spellouts l s)))) ↔ _
  rw [h1, e]
  constructor
  · intro hw p a b q ex
    exact wf_join h4 (fun v hv' => (hv v hv').1) hw (p.map (spelling l s)) _ _ (q.map (spelling l s))
      (by rw [ex]; simp)
  · intro hc
    refine join_wf _ hv ?_
    intro p v w q ex
    obtain ⟨p', t, rfl, rfl, et⟩ := List.map_eq_append_iff.1 ex
    obtain ⟨a, t', rfl, rfl, et'⟩ := List.map_eq_cons_iff.1 et
    obtain ⟨b, q', rfl, rfl, _⟩ := List.map_eq_cons_iff.1 et'
    exact hc p' a b q' rfl

/-- C112 fails for "fa" in Kannada, Malayalam and Telugu. -/
theorem C112_wellformed_violated {l : Language} {s : Script} {d : BrahmicData}
    (h : (l, s, d) ∈ joinerScripts) : ∃ y, speller .utf8 l s a!"fa" y ∧ ¬ wellFormed d y := by
  have key : (joinerScripts.all fun p =>
      !(RE.accepts (reWellFormed p.2.2) (spelledOut p.1 p.2.1 a!"fa"))) = true := by decide +kernel
  have k := List.all_eq_true.1 key _ h
  refine ⟨_, (C110_speller ..).2 ⟨by decide, rfl⟩, ?_⟩
  rw [← C16_recogniser]
  show ¬ RE.accepts (reWellFormed d) (spelledOut l s a!"fa") = true
  simpa using k

/-- "hd" in Malayalam is well formed. -/
example : ∃ y, speller .utf8 .ml .mlym a!"hd" y ∧ wellFormed Data.mlym y := by
  refine ⟨_, (C110_speller ..).2 ⟨by decide, rfl⟩, ?_⟩
  rw [← C16_recogniser]; decide +kernel

/-- "pdf" in Hindi is well formed and survives conversion to ISO and back. -/
example {R : Rel} (hR : nfcFst Data.deva (sigmaUtf8 Data.deva) = some R) :
    ∃ y z, speller .utf8 .hi .deva a!"pdf" y ∧ wellFormed Data.deva y ∧
      ∀ u, WRel.Best (toScript Data.deva R) z u ↔ u = y := by
  have hy := (C110_speller .utf8 .hi .deva a!"pdf" _).2 ⟨by decide, rfl⟩
  have hw := C112_wellformed_partial (l := .hi) (s := .deva) (d := Data.deva)
    (by simp [plainScripts]) hy
  obtain ⟨z, _, hz⟩ := C112_round_trip (l := .hi) (s := .deva) (d := Data.deva)
    (by simp [plainScripts]) (fun c h => h) hR hy hw
  exact ⟨_, z, hy, hw, hz⟩

end Nisaba.Props
