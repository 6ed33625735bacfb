import Verif.Lemmas.AbjadIdem
import Verif.Lemmas.AbjadRoman
import Verif.Props.Nfc
/-!
# Abjad scripts (C23 – C28)

`nfcFst`, `visualNormFst`, `fromArab` and `toArab` are the relations compiled from the tables in
/repo; they are defined with the declarative rewrite `CDRewrite`.
-/
set_option maxRecDepth 100000
namespace Nisaba.Props
open Nisaba Nisaba.Abjad

private theorem nfc_writes : RhsOver Abjad.sigma Data.arabNfc := fun _ hp _ hc =>
  Or.inl (mem_tableChars hp hc)

/-! ## C23 -/

/-- C23. Romanizing and converting back gives the NFC form and nothing else; equal romanizations come
from texts with equal NFC; every text over NFC-stable coverage has exactly one romanization. -/
theorem C23_reversible : ∃ n F, Abjad.nfcFst Abjad.sigma = some n ∧ fromArab Abjad.sigma = some F ∧
    (∀ s r, F s r → ∃ t, n s t ∧ toArab r t ∧ ∀ t', toArab r t' → t' = t) ∧
    (∀ s s' r, F s r → F s' r → ∀ t t', n s t → n s' t' → t = t') ∧
    (∀ s r r', F s r → F s r' → r = r') ∧
    (∀ s t, n s t → (∀ c ∈ t, ∃ r, ([c], r) ∈ Data.arabReversibleRoman) → ∃ r, F s r) := by
  obtain ⟨n, hn, hg, _⟩ := Abjad.nfc_graph nfc_writes
  have hfun : ∀ {s t t'}, n s t → n s t' → t = t' := fun h h' => by
    rw [((hg _ _).1 h).2, ((hg _ _).1 h').2]
  refine ⟨n, Rel.comp n romanFst, hn, by simp [fromArab, hn], ?_, ?_, ?_, ?_⟩
  · rintro s r ⟨t, h1, h2⟩
    exact ⟨t, h1, h2, fun t' ht' => roman_unique ht' h2⟩
  · rintro s s' r ⟨u, h1, h2⟩ ⟨u', h1', h2'⟩ t t' ht ht'
    rw [hfun ht h1, hfun ht' h1', roman_unique h2 h2']
  · rintro s r r' ⟨t, h1, h2⟩ ⟨t', h1', h2'⟩
    rw [hfun h1' h1] at h2'
    exact roman_functional h2 h2'
  · intro s t h1 h2
    obtain ⟨r, hr⟩ := roman_total h2
    exact ⟨r, t, h1, hr⟩

/-- Each string of the romanization decodes to at most one text, and conversion back reads exactly
the romanizations of texts over the characters of the table. -/
theorem C23_decodes (r t t' : Str) (h : toArab r t) (h' : toArab r t') : t = t' := roman_unique h h'

example : romanFst [0x622, 0x628] [0x2BC, 0x35F, 0x101, 0x62] :=
  .cons (x₁ := [0x622]) (y₁ := [0x2BC, 0x35F, 0x101]) (by decide +kernel : _ ∈ Data.arabReversibleRoman)
    (.cons (x₁ := [0x628]) (y₁ := [0x62]) (by decide +kernel : _ ∈ Data.arabReversibleRoman) .nil)

/-! ## C24, C25 -/

/-- C24 fails: NFC of two small tahs with a kasra has to be taken twice. -/
theorem C24_not_idempotent : ∃ n, Abjad.nfcFst Abjad.sigma = some n ∧
    n [0x615, 0x615, 0x650] [0x615, 0x650, 0x615] ∧
    n [0x615, 0x650, 0x615] [0x650, 0x615, 0x615] := by
  obtain ⟨n, hn, hg, _⟩ := Abjad.nfc_graph nfc_writes
  have hs : ∀ c, c = 0x615 ∨ c = 0x650 → Abjad.sigma c := by
    intro c hc
    refine Or.inl ((memNat_iff).1 ?_)
    rcases hc with rfl | rfl <;> decide +kernel
  refine ⟨n, hn, (hg _ _).2 ⟨fun c hc => hs c (by simp at hc; omega), ?_⟩,
    (hg _ _).2 ⟨fun c hc => hs c (by simp at hc; omega), ?_⟩⟩ <;> decide +kernel

/-- C24 fails on an alef with a madda above and a hamza below as well. -/
theorem C24_not_idempotent_alef : nfc [0x627, 0x653, 0x655] = [0x622, 0x655] ∧
    nfc [0x622, 0x655] = [0x625, 0x653] := by decide +kernel

/-- The part of C24 that holds: NFC is idempotent on text without two consecutive marks.
Missing: text with several marks on a letter, where it is false. -/
theorem C24_idempotent_partial : ∃ n, Abjad.nfcFst Abjad.sigma = some n ∧
    ∀ s t u, oneMark s = true → n s t → n t u → u = t := by
  obtain ⟨n, hn, hg, _⟩ := Abjad.nfc_graph nfc_writes
  refine ⟨n, hn, fun s t u h h1 h2 => ?_⟩
  obtain ⟨_, rfl⟩ := (hg _ _).1 h1
  rw [((hg _ _).1 h2).2]
  exact nfc_idem_oneMark h

example : oneMark [0x627, 0x653, 0x628, 0x650, 0x627] = true ∧
    nfc [0x627, 0x653, 0x628, 0x650, 0x627] = [0x622, 0x628, 0x650, 0x627] := by decide +kernel

/-- `n`-fold application of a relation. -/
def Iterate (R : Rel) : Nat → Rel
  | 0 => fun s t => s = t
  | k + 1 => fun s t => ∃ u, Iterate R k s u ∧ R u t

private theorem iterate_iff {R : Rel} {f : Str → Str} {σ : Nat → Prop} (hg : Graph σ R f)
    (hm : MapsOver σ σ f) (k : Nat) {s t : Str} (hs : Over σ s) :
    Iterate R k s t ↔ t = Nat.repeat f k s := by
  have over : ∀ k, Over σ (Nat.repeat f k s) := by
    intro k
    induction k with
    | zero => exact hs
    | succ k ih => exact hm _ ih
  induction k generalizing t with
  | zero => simp [Iterate, Nat.repeat, eq_comm]
  | succ k ih =>
    simp only [Iterate, Nat.repeat]
    constructor
    · rintro ⟨u, h1, h2⟩
      rw [ih.1 h1] at h2
      exact ((hg _ _).1 h2).2
    · rintro rfl
      exact ⟨_, ih.2 rfl, (hg _ _).2 ⟨over k, rfl⟩⟩

/-- C25. Repeating NFC reaches a text that NFC keeps. -/
theorem C25_reaches_fixed_point : ∃ n, Abjad.nfcFst Abjad.sigma = some n ∧
    ∀ s, Over Abjad.sigma s → ∃ k t, Iterate n k s t ∧ n t t := by
  obtain ⟨n, hn, hg, hm⟩ := Abjad.nfc_graph nfc_writes
  refine ⟨n, hn, fun s hs => ?_⟩
  obtain ⟨k, hk⟩ := nfc_exists_fixed s
  have h : Iterate n k s (Nat.repeat nfc k s) := (iterate_iff hg hm k hs).2 rfl
  refine ⟨k, _, h, (hg _ _).2 ⟨?_, hk.symm⟩⟩
  clear hk h
  induction k with
  | zero => exact hs
  | succ k ih => exact hm _ ih

/-- No fixed number of passes is enough. -/
theorem C25_no_bound : ∃ n, Abjad.nfcFst Abjad.sigma = some n ∧
    ∀ k, ∃ s t, Over Abjad.sigma s ∧ Iterate n k s t ∧ ¬ n t t := by
  obtain ⟨n, hn, hg, hm⟩ := Abjad.nfc_graph nfc_writes
  refine ⟨n, hn, fun k => ?_⟩
  have hs : ∀ c, c = 0x615 ∨ c = 0x650 → Abjad.sigma c := by
    intro c hc
    refine Or.inl ((memNat_iff).1 ?_)
    rcases hc with rfl | rfl <;> decide +kernel
  have ho : Over Abjad.sigma (List.replicate (k + 1) 0x615 ++ [0x650]) := by
    intro c hc
    rcases List.mem_append.1 hc with hc | hc
    · exact hs c (Or.inl (List.eq_of_mem_replicate hc))
    · exact hs c (Or.inr (by simpa using hc))
  have hk : ∀ j, j ≤ k → Nat.repeat nfc j (List.replicate (k + 1) 0x615 ++ [0x650]) =
      List.replicate (k + 1 - j) 0x615 ++ 0x650 :: List.replicate j 0x615 := by
    intro j
    induction j with
    | zero => intro _; rfl
    | succ j ih =>
      intro hj
      rw [Nat.repeat, ih (by omega)]
      have : k + 1 - j = (k - j) + 1 := by omega
      rw [this, nfc_move]
      congr 2
      omega
  refine ⟨_, _, ho, (iterate_iff hg hm k ho).2 rfl, fun h => ?_⟩
  have e := ((hg _ _).1 h).2
  rw [hk k (Nat.le_refl _)] at e
  have : k + 1 - k = 0 + 1 := by omega
  rw [this, nfc_move] at e
  simp at e

/-! ## C26 -/

/-- `t` is what the rows write for `c`, which is `c` itself when there is no row for it. -/
def Looks (rows : List Rule) (c : Nat) (t : Str) : Prop :=
  ([c], t) ∈ rows ∨ ((∀ r, ([c], r) ∉ rows) ∧ t = [c])

/-- Character by character. -/
inductive PerChar (rows : List Rule) : Str → Str → Prop
  | nil : PerChar rows [] []
  | cons {c : Nat} {s t u : Str} : Looks rows c t → PerChar rows s u → PerChar rows (c :: s) (t ++ u)

/-- All characters of the word but the last are rewritten, the last one is kept. -/
def Nonfinal (rows : List Rule) (s t : Str) : Prop :=
  (s = [] ∧ t = []) ∨ ∃ p c q, s = p ++ [c] ∧ t = q ++ [c] ∧ PerChar rows p q

/-- The last character of words of at least two characters is rewritten, all others are kept. -/
def Final (rows : List Rule) (s t : Str) : Prop :=
  (s.length ≤ 1 ∧ t = s) ∨ ∃ p c r, p ≠ [] ∧ s = p ++ [c] ∧ t = p ++ r ∧ Looks rows c r

/-- The word is rewritten when the whole of it is listed. -/
def Isolated (rows : List Rule) (s t : Str) : Prop :=
  (s, t) ∈ rows ∨ ((∀ r, (s, r) ∉ rows) ∧ t = s)

private theorem looks_iff {rows : List Rule} (h1 : ∀ p ∈ rows, p.1.length = 1)
    (hd : ∀ p ∈ rows, ∀ q ∈ rows, p.1 = q.1 → p = q) {c : Nat} {t : Str} :
    Looks rows c t ↔ t = charMap rows c := by
  unfold charMap
  cases hf : findRule rows [c] with
  | none =>
    have hn : ∀ r, ([c], r) ∉ rows := fun r hr =>
      findRule_none hf _ hr (List.prefix_refl _)
    constructor
    · rintro (h | h)
      · exact absurd h (hn t)
      · exact h.2
    · intro h; exact Or.inr ⟨hn, h⟩
  | some p =>
    have hm := (findRule_some hf).1
    have he : p.1 = [c] := (findRule_some hf).2.eq_of_length (by rw [h1 p hm]; rfl)
    constructor
    · rintro (h | h)
      · have := hd _ h p hm (by rw [he])
        rw [← this]
      · exact absurd (by rw [← he]; exact hm) (h.1 p.2)
    · intro h; exact Or.inl (by rw [h, ← he]; exact hm)

private theorem perChar_iff {rows : List Rule} (h1 : ∀ p ∈ rows, p.1.length = 1)
    (hd : ∀ p ∈ rows, ∀ q ∈ rows, p.1 = q.1 → p = q) {s t : Str} :
    PerChar rows s t ↔ t = s.flatMap (charMap rows) := by
  constructor
  · intro h
    induction h with
    | nil => rfl
    | cons h _ ih => rw [List.flatMap_cons, ← ih, (looks_iff h1 hd).1 h]
  · rintro rfl
    induction s with
    | nil => exact .nil
    | cons c s ih => exact .cons ((looks_iff h1 hd).2 rfl) ih

private theorem nonfinal_iff {rows : List Rule} (h1 : ∀ p ∈ rows, p.1.length = 1)
    (hd : ∀ p ∈ rows, ∀ q ∈ rows, p.1 = q.1 → p = q) {s t : Str} :
    Nonfinal rows s t ↔ t = nonfin rows s := by
  rcases List.eq_nil_or_concat s with rfl | ⟨p, c, rfl⟩
  · simp [Nonfinal, nonfin]
  · rw [List.concat_eq_append, nonfin_concat]
    constructor
    · rintro (⟨h, _⟩ | ⟨p', c', q, h2, h3, h4⟩)
      · simp at h
      · obtain ⟨h5, h6⟩ := List.append_inj' h2 rfl
        rw [h3, (perChar_iff h1 hd).1 h4, h5]
        simp at h6; rw [h6]
    · rintro rfl
      exact Or.inr ⟨p, c, _, rfl, rfl, (perChar_iff h1 hd).2 rfl⟩

private theorem final_iff {rows : List Rule} (h1 : ∀ p ∈ rows, p.1.length = 1)
    (hd : ∀ p ∈ rows, ∀ q ∈ rows, p.1 = q.1 → p = q) {s t : Str} :
    Final rows s t ↔ t = fin rows s := by
  rcases List.eq_nil_or_concat s with rfl | ⟨p, c, rfl⟩
  · simp [Final, fin]
  · rw [List.concat_eq_append]
    cases p with
    | nil =>
      constructor
      · rintro (⟨_, h⟩ | ⟨p', c', q, h0, h2, h3, h4⟩)
        · rw [h]; rfl
        · obtain ⟨h5, h6⟩ := List.append_inj' h2 rfl
          exact absurd h5.symm h0
      · rintro rfl; exact Or.inl ⟨by simp, rfl⟩
    | cons x p =>
      rw [fin_concat _ (by simp)]
      constructor
      · rintro (⟨h, _⟩ | ⟨p', c', q, h0, h2, h3, h4⟩)
        · simp at h
        · obtain ⟨h5, h6⟩ := List.append_inj' h2 rfl
          rw [h3, (looks_iff h1 hd).1 h4, h5]
          simp at h6; rw [h6]
      · rintro rfl
        exact Or.inr ⟨_, c, _, by simp, rfl, rfl, (looks_iff h1 hd).2 rfl⟩

private theorem isolated_iff {rows : List Rule}
    (hd : ∀ p ∈ rows, ∀ q ∈ rows, p.1 = q.1 → p = q) {s t : Str} :
    Isolated rows s t ↔ t = iso rows s := by
  rw [iso_eq]
  cases hf : rows.find? fun p => strEq p.1 s with
  | none =>
    have hn : ∀ r, (s, r) ∉ rows := fun r hr => by
      have := List.find?_eq_none.1 hf _ hr
      exact this (strEq_iff.2 rfl)
    constructor
    · rintro (h | h)
      · exact absurd h (hn t)
      · exact h.2
    · intro h; exact Or.inr ⟨hn, h⟩
  | some p =>
    have hm := List.mem_of_find?_eq_some hf
    have he : p.1 = s := strEq_iff.1 (List.find?_some (p := fun p : Rule => strEq p.1 s) hf)
    constructor
    · rintro (h | h)
      · have := hd _ h p hm (by rw [he])
        rw [← this]
      · exact absurd (by rw [← he]; exact hm) (h.1 p.2)
    · intro h; exact Or.inl (by rw [h, ← he]; exact hm)

/-- C26. For each language: the grammar compiles; it maps every word over the alphabet to exactly one
word over the alphabet, and no other word to anything; and the result is that of the presentation
form, NFC, common and language rule files, followed by the rules for non-final characters, those for
the final character and those for the whole word. -/
theorem C26_total_positional (l : AbjadData) (hl : l ∈ Data.abjadLangs) :
    ∃ R pf n v a, Abjad.visualNormFst l Abjad.sigma = some R ∧ FunctionOn Abjad.sigma R ∧
      (∀ s t, R s t → Over Abjad.sigma s) ∧
      fstFromRules Data.arabPresentationForms Abjad.sigma = some pf ∧
      fstFromRules Data.arabNfc Abjad.sigma = some n ∧
      fstFromRules Data.arabVisualNorm Abjad.sigma = some v ∧
      fstFromRules l.visualNorm Abjad.sigma = some a ∧
      ∀ s t, R s t ↔ ∃ s₁ s₂ s₃ s₄ s₅ s₆, pf s s₁ ∧ n s₁ s₂ ∧ v s₂ s₃ ∧ a s₃ s₄ ∧
        Nonfinal l.nonfinal s₄ s₅ ∧ Final l.finalIsolated s₅ s₆ ∧
        Isolated (l.finalIsolated ++ l.isolated) s₆ t := by
  have hσ := writes_sigma hl
  have ok := langOk_of hl
  obtain ⟨R, hR, hg, hm⟩ := Abjad.visualNorm_graph hl hσ
  obtain ⟨pf, n, v, a, e1, g1, e2, g2, e3, g3, e4, g4, _⟩ := visualNorm_stages hl hσ
  refine ⟨R, pf, n, v, a, hR, ?_, fun s t h => ((hg _ _).1 h).1, e1, e2, e3, e4, ?_⟩
  · exact fun s hs => ⟨_, (hg _ _).2 ⟨hs, rfl⟩, hm s hs, fun t' ht' => ((hg _ _).1 ht').2⟩
  · intro s t
    simp only [nonfinal_iff ok.nf1 ok.nfd, final_iff ok.fi1 ok.fid, isolated_iff ok.isd]
    rw [hg]
    constructor
    · rintro ⟨hs, rfl⟩
      have o1 := over_pfMap hσ.pf s hs
      have o2 := over_applyRules nfc_ok hσ.nfc _ o1
      have o3 := over_applyRules vis_ok hσ.vis _ o2
      exact ⟨pfMap s, nfc (pfMap s), _, anywhere l (pfMap s), _, _, (g1 _ _).2 ⟨hs, rfl⟩,
        (g2 _ _).2 ⟨o1, rfl⟩, (g3 _ _).2 ⟨o2, rfl⟩, (g4 _ _).2 ⟨o3, rfl⟩, rfl, rfl, rfl⟩
    · rintro ⟨s₁, s₂, s₃, s₄, s₅, s₆, h1, h2, h3, h4, rfl, rfl, rfl⟩
      obtain ⟨hs, rfl⟩ := (g1 _ _).1 h1
      obtain ⟨_, rfl⟩ := (g2 _ _).1 h2
      obtain ⟨_, rfl⟩ := (g3 _ _).1 h3
      obtain ⟨_, rfl⟩ := (g4 _ _).1 h4
      exact ⟨hs, rfl⟩

-- Urdu: a final heh stays, an isolated one becomes heh goal, a final alef maksura becomes farsi yeh
example : Isolated (Data.arabUr.finalIsolated ++ Data.arabUr.isolated) [0x647] [0x6C1] ∧
    Final Data.arabUr.finalIsolated [0x628, 0x649] [0x628, 0x6CC] :=
  ⟨Or.inl (by decide +kernel), Or.inr ⟨[0x628], 0x649, [0x6CC], by simp, rfl, rfl, Or.inl (by decide +kernel)⟩⟩

/-! ## C27 -/

/-- C27 fails in every language: deleting a joiner brings together an alef and a madda, which only the
second pass composes. -/
theorem C27_not_idempotent (l : AbjadData) (hl : l ∈ Data.abjadLangs) :
    ∃ R, Abjad.visualNormFst l Abjad.sigma = some R ∧
      R [0x627, 0x200D, 0x653] [0x627, 0x653] ∧ R [0x627, 0x653] [0x622] := by
  obtain ⟨R, hR, hg, _⟩ := Abjad.visualNorm_graph hl (writes_sigma hl)
  have hs : ∀ c, c = 0x627 ∨ c = 0x200D ∨ c = 0x653 → Abjad.sigma c := by
    intro c hc
    rcases hc with rfl | rfl | rfl
    · exact Or.inl ((memNat_iff).1 (by decide +kernel))
    · exact Or.inr (Or.inr (Or.inr (Or.inr (Or.inr (Or.inr (Or.inl rfl))))))
    · exact Or.inl ((memNat_iff).1 (by decide +kernel))
  have key : (Data.abjadLangs.all fun l =>
      strEq (Abjad.visualNorm l [0x627, 0x200D, 0x653]) [0x627, 0x653] &&
      strEq (Abjad.visualNorm l [0x627, 0x653]) [0x622]) = true := by decide +kernel
  have := List.all_eq_true.1 key l hl
  simp only [Bool.and_eq_true, strEq_iff] at this
  exact ⟨R, hR, (hg _ _).2 ⟨fun c hc => hs c (by simp at hc; omega), this.1.symm⟩,
    (hg _ _).2 ⟨fun c hc => hs c (by simp at hc; omega), this.2.symm⟩⟩

/-- In Dari an isolated heh and an isolated heh goal are exchanged by every pass. -/
theorem C27_dari_alternates : ∃ R, Abjad.visualNormFst Data.arabPrs Abjad.sigma = some R ∧
    R [0x647] [0x6C1] ∧ R [0x6C1] [0x647] := by
  have hl : Data.arabPrs ∈ Data.abjadLangs := by simp [Data.abjadLangs]
  obtain ⟨R, hR, hg, _⟩ := Abjad.visualNorm_graph hl (writes_sigma hl)
  have hs : ∀ c, c = 0x647 ∨ c = 0x6C1 → Abjad.sigma c := by
    intro c hc
    refine Or.inr (Or.inr (Or.inr (Or.inl ⟨_, hl, Or.inr (Or.inr (Or.inr (Or.inl
      ((memNat_iff).1 ?_))))⟩)))
    rcases hc with rfl | rfl <;> decide +kernel
  refine ⟨R, hR, (hg _ _).2 ⟨fun c hc => hs c (by simp at hc; omega), ?_⟩,
    (hg _ _).2 ⟨fun c hc => hs c (by simp at hc; omega), ?_⟩⟩ <;> decide +kernel

/-- `c` continues a sequence that some table of the language rewrites, so it is not a plain letter. -/
def Continues (l : AbjadData) (c : Nat) : Prop :=
  ∃ p ∈ Data.arabNfc ++ Data.arabVisualNorm ++ l.visualNorm ++ l.finalIsolated ++ l.isolated,
    c ∈ p.1.tail

/-- The part of C27 that holds: words of plain letters, also when written with presentation forms,
are normalized by one pass; in Dari this needs words of at least two letters.
Missing: words with marks, where the property is false. -/
theorem C27_idempotent_partial (l : AbjadData) (hl : l ∈ Data.abjadLangs) :
    ∃ R pf, Abjad.visualNormFst l Abjad.sigma = some R ∧
      fstFromRules Data.arabPresentationForms Abjad.sigma = some pf ∧
      ∀ w x t u, pf w x → (∀ c ∈ x, ¬ Continues l c) → R w t → (l.lang = "prs" → t.length ≠ 1) →
        R t u → u = t := by
  have hσ := writes_sigma hl
  obtain ⟨R, hR, hg, hm⟩ := Abjad.visualNorm_graph hl hσ
  obtain ⟨pf, _, _, _, e1, g1, _⟩ := visualNorm_stages hl hσ
  refine ⟨R, pf, hR, e1, fun w x t u h1 h2 h3 h4 h5 => ?_⟩
  obtain ⟨_, rfl⟩ := (g1 _ _).1 h1
  obtain ⟨_, rfl⟩ := (hg _ _).1 h3
  rw [((hg _ _).1 h5).2]
  refine visualNorm_idem hl (fun c hc => ?_) (fun h he => h4 he h)
  have := h2 c hc
  cases ht : isTail l c with
  | false => rfl
  | true =>
    exfalso
    unfold isTail at ht
    rw [memNat_iff] at ht
    obtain ⟨p, hp, hc'⟩ := List.mem_flatMap.1 ht
    exact this ⟨p, hp, hc'⟩

-- Sindhi: a word in presentation forms
example : pfMap [0xFE91, 0xFEEA] = [0x628, 0x647] ∧ isTail Data.arabSd 0x628 = false ∧
    isTail Data.arabSd 0x647 = false ∧ Abjad.visualNorm Data.arabSd [0xFE91, 0xFEEA] = [0x628, 0x647] := by
  decide +kernel

/-! ## C28 -/

/-- C28. No presentation form of the table is left. -/
theorem C28_no_presentation_forms (l : AbjadData) (hl : l ∈ Data.abjadLangs) :
    ∃ R, Abjad.visualNormFst l Abjad.sigma = some R ∧
      ∀ s t, R s t → ∀ c ∈ t, ∀ r, ([c], r) ∉ Data.arabPresentationForms := by
  obtain ⟨R, hR, hg, _⟩ := Abjad.visualNorm_graph hl (writes_sigma hl)
  refine ⟨R, hR, fun s t h c hc r hr => ?_⟩
  obtain ⟨_, rfl⟩ := (hg _ _).1 h
  exact visualNorm_notForm hl s c hc _ hr rfl

/-- Every row of the table is about a single character, so this is the whole table. -/
theorem C28_rows : ∀ p ∈ Data.arabPresentationForms, ∃ c, p.1 = [c] := fun p hp =>
  let ⟨c, _, e⟩ := increasing_lt forms_high p hp
  ⟨c, e⟩

end Nisaba.Props
