import Verif.Lemmas.AbjadNfc
/-! Visual normalization of words without marks. -/
set_option maxRecDepth 100000
namespace Nisaba.Abjad
open Nisaba

/-! ## Rule sets act letter by letter on words without marks -/

/-- `T` contains the non-initial characters of left-hand sides, and single characters are not
rewritten to characters of `T`. -/
structure LetterRules (T : Nat → Bool) (rules : List Rule) : Prop where
  ne : LhsNonempty rules
  tail : ∀ p ∈ rules, ∀ d ∈ p.1.tail, T d = true
  rhs : ∀ p ∈ rules, p.1.length = 1 → ∀ d ∈ p.2, T d = false

theorem LetterRules.mono {T : Nat → Bool} {a b : List Rule} (h : LetterRules T b)
    (hab : ∀ p ∈ a, p ∈ b) : LetterRules T a :=
  ⟨fun p hp => h.ne p (hab p hp), fun p hp => h.tail p (hab p hp), fun p hp => h.rhs p (hab p hp)⟩

def Letters (T : Nat → Bool) (s : Str) : Prop := ∀ c ∈ s, T c = false

theorem scan_hom {T : Nat → Bool} {st : List Rule} (h : LetterRules T st) {s : Str}
    (hs : Letters T s) : scan st 0 s = s.flatMap fun c => scan st 0 [c] := by
  induction s with
  | nil => simp [scan]
  | cons c s ih =>
    have hs' : Letters T s := fun d hd => hs d (List.mem_cons_of_mem _ hd)
    rw [List.flatMap_cons, ← ih hs']
    cases s with
    | nil => simp [scan]
    | cons d s =>
      have := scan_split (a := [c]) (c := d) (b := s) h.ne (fun p hp x hx e => by
        have h1 := h.tail p hp x hx
        rw [e, hs d (by simp)] at h1
        exact absurd h1 (by simp))
      simpa using this

theorem scan_one {T : Nat → Bool} {st : List Rule} (h : LetterRules T st) (c : Nat) :
    scan st 0 [c] = [c] ∨ ∃ p ∈ st, p.1 = [c] ∧ scan st 0 [c] = p.2 := by
  rw [scan_cons_eq h.ne]
  cases hf : findRule st [c] with
  | none => exact Or.inl (by simp [scan])
  | some p =>
    have hm := (findRule_some hf).1
    have hl : 0 < p.1.length := List.length_pos_iff.2 (h.ne p hm)
    have hle := (findRule_some hf).2.length_le
    simp only [List.length_cons, List.length_nil] at hle
    have he : p.1 = [c] := (findRule_some hf).2.eq_of_length (by simp; omega)
    refine Or.inr ⟨p, hm, he, ?_⟩
    simp [he, scan]

theorem letters_scan_one {T : Nat → Bool} {st : List Rule} (h : LetterRules T st) {c : Nat}
    (hc : T c = false) : Letters T (scan st 0 [c]) := by
  rcases scan_one h c with e | ⟨p, hp, hl, e⟩
  · rw [e]; intro d hd; simp at hd; rw [hd]; exact hc
  · rw [e]; exact h.rhs p hp (by simp [hl])

theorem letters_flatMap {T : Nat → Bool} {f : Nat → Str} (hf : ∀ c, T c = false → Letters T (f c))
    {s : Str} (hs : Letters T s) : Letters T (s.flatMap f) := by
  intro d hd
  obtain ⟨c, hc, hd⟩ := List.mem_flatMap.1 hd
  exact hf c (hs c hc) d hd

theorem scanAll_hom {T : Nat → Bool} {sts : List (List Rule)} (h : ∀ st ∈ sts, LetterRules T st)
    {s : Str} (hs : Letters T s) :
    scanAll sts s = s.flatMap (fun c => scanAll sts [c]) ∧
      ∀ c, T c = false → Letters T (scanAll sts [c]) := by
  induction sts generalizing s with
  | nil =>
    refine ⟨?_, fun c hc d hd => by simp [scanAll] at hd; rw [hd]; exact hc⟩
    simp [scanAll]
  | cons st sts ih =>
    have h1 := h st (by simp)
    have ih' := fun {s : Str} (hs : Letters T s) => ih (fun x hx => h x (List.mem_cons_of_mem _ hx)) hs
    have one : ∀ c, T c = false → scanAll (st :: sts) [c] =
        (scan st 0 [c]).flatMap fun d => scanAll sts [d] := fun c hc =>
      (ih' (letters_scan_one h1 hc)).1
    refine ⟨?_, fun c hc => ?_⟩
    · rw [scanAll, scan_hom h1 hs,
        (ih' (letters_flatMap (fun c hc => letters_scan_one h1 hc) hs)).1]
      induction s with
      | nil => rfl
      | cons c s ihs =>
        simp only [List.flatMap_cons, List.flatMap_append]
        rw [ihs fun d hd => hs d (List.mem_cons_of_mem _ hd), one c (hs c (by simp))]
    · rw [one c hc]
      exact letters_flatMap (fun d hd => (ih' hs).2 d hd) (letters_scan_one h1 hc)

theorem applyRules_hom {T : Nat → Bool} {rules : List Rule} (h : LetterRules T rules)
    {s : Str} (hs : Letters T s) :
    applyRules rules s = s.flatMap (fun c => applyRules rules [c]) ∧
      ∀ c, T c = false → Letters T (applyRules rules [c]) := by
  unfold applyRules
  refine scanAll_hom ?_ hs
  intro st hst
  unfold stages at hst
  cases hp : partitionUnordered rules with
  | ok sets =>
    rw [hp] at hst
    exact h.mono fun p hp' => mem_sets_rules hp hst hp'
  | valueError => rw [hp] at hst; simp at hst
  | fuel => rw [hp] at hst; simp at hst

/-- A character that is no left-hand side is kept. -/
theorem applyRules_keep {T : Nat → Bool} {rules : List Rule} (h : LetterRules T rules) {c : Nat}
    (hc : ∀ p ∈ rules, p.1 ≠ [c]) : applyRules rules [c] = [c] := by
  unfold applyRules
  have : ∀ st ∈ stages rules, scan st 0 [c] = [c] := by
    intro st hst
    unfold stages at hst
    cases hp : partitionUnordered rules with
    | ok sets =>
      rw [hp] at hst
      have hm : ∀ p ∈ st, p ∈ rules := fun p hp' => mem_sets_rules hp hst hp'
      rcases scan_one (h.mono hm) c with e | ⟨p, hp', e, _⟩
      · exact e
      · exact absurd e (hc p (hm p hp'))
    | valueError => rw [hp] at hst; simp at hst
    | fuel => rw [hp] at hst; simp at hst
  generalize stages rules = sts at this
  induction sts with
  | nil => rfl
  | cons st sts ih =>
    rw [scanAll, this st (by simp), ih fun x hx => this x (List.mem_cons_of_mem _ hx)]

theorem applyRules_nil (rules : List Rule) : applyRules rules [] = [] := by
  unfold applyRules
  induction stages rules with
  | nil => rfl
  | cons st sts ih => simpa [scanAll, scan] using ih

/-! ## One language -/

/-- Characters at a non-initial position of a left-hand side. -/
def tails (l : AbjadData) : List Nat :=
  (Data.arabNfc ++ Data.arabVisualNorm ++ l.visualNorm ++ l.finalIsolated ++ l.isolated).flatMap
    fun p => p.1.tail

def isTail (l : AbjadData) (c : Nat) : Bool := memNat (tails l) c

def letterRulesB (l : AbjadData) (rules : List Rule) : Bool :=
  rules.all fun p => !p.1.isEmpty && (p.1.tail.all (isTail l)) &&
    (!(Nat.beq p.1.length 1) || p.2.all fun c => !isTail l c)

theorem letterRulesB_iff {l : AbjadData} {rules : List Rule} (h : letterRulesB l rules = true) :
    LetterRules (isTail l) rules := by
  simp only [letterRulesB, List.all_eq_true, Bool.and_eq_true, Bool.or_eq_true,
    Bool.not_eq_true'] at h
  refine ⟨fun p hp hn => ?_, fun p hp => (h p hp).1.2, fun p hp hl => ?_⟩
  · have := (h p hp).1.1; simp [hn] at this
  · rcases (h p hp).2 with h' | h'
    · rw [hl] at h'; exact absurd h' (by decide)
    · exact h'

/-- All single-character left-hand sides. -/
def keys (l : AbjadData) : List Nat :=
  (Data.arabVisualNorm ++ l.visualNorm ++ l.nonfinal ++ l.finalIsolated ++ l.isolated).flatMap
    fun p => match p.1 with | [c] => [c] | _ => []

/-- The characters that letters with a row become before the positional rules. -/
def images (l : AbjadData) : List Nat :=
  ((keys l).filter fun c => !isTail l c).flatMap fun c => anywhere l [c]

/-- A rule of position turns a letter into a letter that nothing changes further. -/
def stableB (l : AbjadData) (rows : List Rule) (b : Nat) : Bool :=
  match charMap rows b with
  | [n] => !isTail l n && strEq (anywhere l [n]) [n] && strEq (charMap rows n) [n]
  | _ => false

def longOk (l : AbjadData) : Bool :=
  letterRulesB l Data.arabNfc && letterRulesB l Data.arabVisualNorm && letterRulesB l l.visualNorm &&
  (Data.arabNfc.all fun p => !(Nat.beq p.1.length 1)) &&
  (images l).all (fun b => stableB l l.nonfinal b && stableB l l.finalIsolated b)

def shortOk (l : AbjadData) : Bool :=
  (images l).all fun b =>
    let y := iso (l.finalIsolated ++ l.isolated) [b]
    strEq (positional l (anywhere l y)) y

theorem long_all : (Data.abjadLangs.all longOk) = true := by decide +kernel

theorem short_all : (Data.abjadLangs.all fun l => shortOk l || l.lang == "prs") = true := by
  decide +kernel

/-- In Dari the isolated rows write single characters. -/
theorem prs_single : (Data.abjadLangs.all fun l => l.lang != "prs" ||
    (l.finalIsolated ++ l.isolated).all fun p => Nat.beq p.2.length 1) = true := by decide +kernel

structure LongOk (l : AbjadData) : Prop where
  nfc : LetterRules (isTail l) Data.arabNfc
  vis : LetterRules (isTail l) Data.arabVisualNorm
  vn : LetterRules (isTail l) l.visualNorm
  two : ∀ p ∈ Data.arabNfc, p.1.length ≠ 1
  nf : ∀ b ∈ images l, ∃ n, charMap l.nonfinal b = [n] ∧ isTail l n = false ∧
    anywhere l [n] = [n] ∧ charMap l.nonfinal n = [n]
  fi : ∀ b ∈ images l, ∃ n, charMap l.finalIsolated b = [n] ∧ isTail l n = false ∧
    anywhere l [n] = [n] ∧ charMap l.finalIsolated n = [n]

theorem stableB_iff {l : AbjadData} {rows : List Rule} {b : Nat} (h : stableB l rows b = true) :
    ∃ n, charMap rows b = [n] ∧ isTail l n = false ∧ anywhere l [n] = [n] ∧ charMap rows n = [n] := by
  unfold stableB at h
  split at h
  · rename_i n hn
    simp only [Bool.and_eq_true, strEq_iff, Bool.not_eq_true'] at h
    exact ⟨n, hn, h.1.1, h.1.2, h.2⟩
  · simp at h

theorem longOk_of {l : AbjadData} (hl : l ∈ Data.abjadLangs) : LongOk l := by
  have h := List.all_eq_true.1 long_all l hl
  simp only [longOk, Bool.and_eq_true, List.all_eq_true] at h
  obtain ⟨⟨⟨⟨h1, h2⟩, h3⟩, h4⟩, h5⟩ := h
  refine ⟨letterRulesB_iff h1, letterRulesB_iff h2, letterRulesB_iff h3, fun p hp he => ?_,
    fun b hb => stableB_iff (h5 b hb).1, fun b hb => stableB_iff (h5 b hb).2⟩
  have := h4 p hp
  rw [he] at this
  exact absurd this (by decide)

variable {l : AbjadData}

theorem anywhere_hom (h : LongOk l) {s : Str} (hs : Letters (isTail l) s) :
    anywhere l s = s.flatMap (fun c => anywhere l [c]) ∧
      ∀ c, isTail l c = false → Letters (isTail l) (anywhere l [c]) := by
  have a1 := fun {s : Str} (hs : Letters (isTail l) s) => applyRules_hom h.nfc hs
  have a2 := fun {s : Str} (hs : Letters (isTail l) s) => applyRules_hom h.vis hs
  have a3 := fun {s : Str} (hs : Letters (isTail l) s) => applyRules_hom h.vn hs
  have l1 : ∀ {s : Str}, Letters (isTail l) s → Letters (isTail l) (applyRules Data.arabNfc s) :=
    fun hs => by rw [(a1 hs).1]; exact letters_flatMap (a1 hs).2 hs
  have l2 : ∀ {s : Str}, Letters (isTail l) s → Letters (isTail l) (applyRules Data.arabVisualNorm s) :=
    fun hs => by rw [(a2 hs).1]; exact letters_flatMap (a2 hs).2 hs
  have l3 : ∀ {s : Str}, Letters (isTail l) s → Letters (isTail l) (applyRules l.visualNorm s) :=
    fun hs => by rw [(a3 hs).1]; exact letters_flatMap (a3 hs).2 hs
  have app : ∀ {a b : Str}, Letters (isTail l) a → Letters (isTail l) b →
      anywhere l (a ++ b) = anywhere l a ++ anywhere l b := by
    intro a b ha hb
    have happ : ∀ {a b : Str}, Letters (isTail l) a → Letters (isTail l) b →
        Letters (isTail l) (a ++ b) := fun ha hb c hc => by
      rcases List.mem_append.1 hc with hc | hc
      · exact ha c hc
      · exact hb c hc
    have e1 : nfc (a ++ b) = nfc a ++ nfc b := by
      unfold nfc
      rw [(a1 (happ ha hb)).1, (a1 ha).1, (a1 hb).1, List.flatMap_append]
    unfold anywhere
    rw [e1]
    have ha1 : Letters (isTail l) (nfc a) := l1 ha
    have hb1 : Letters (isTail l) (nfc b) := l1 hb
    rw [(a2 (happ ha1 hb1)).1, List.flatMap_append, ← (a2 ha1).1, ← (a2 hb1).1]
    have ha2 := l2 ha1
    have hb2 := l2 hb1
    rw [(a3 (happ ha2 hb2)).1, List.flatMap_append, ← (a3 ha2).1, ← (a3 hb2).1]
  refine ⟨?_, fun c hc => l3 (l2 (l1 fun d hd => by simp at hd; rw [hd]; exact hc))⟩
  induction s with
  | nil => simp [anywhere, nfc, applyRules_nil]
  | cons c s ih =>
    have h1 : Letters (isTail l) [c] := fun d hd => by simp at hd; rw [hd]; exact hs c (by simp)
    have h2 : Letters (isTail l) s := fun d hd => hs d (List.mem_cons_of_mem _ hd)
    rw [List.flatMap_cons, ← ih h2, ← app h1 h2]; rfl

theorem not_key {c : Nat} (hc : c ∉ keys l) {rows : List Rule}
    (hr : ∀ p ∈ rows, p ∈ Data.arabVisualNorm ++ l.visualNorm ++ l.nonfinal ++ l.finalIsolated ++
      l.isolated) : ∀ p ∈ rows, p.1 ≠ [c] := by
  intro p hp he
  apply hc
  refine List.mem_flatMap.2 ⟨p, hr p hp, ?_⟩
  rw [he]; simp

theorem anywhere_keep (h : LongOk l) {c : Nat} (hc : c ∉ keys l) : anywhere l [c] = [c] := by
  unfold anywhere nfc
  rw [applyRules_keep h.nfc (fun p hp he => h.two p hp (by simp [he])),
    applyRules_keep h.vis (not_key hc fun p hp => by simp [hp]),
    applyRules_keep h.vn (not_key hc fun p hp => by simp [hp])]

theorem charMap_keep {rows : List Rule} (h1 : ∀ p ∈ rows, p.1.length = 1) {c : Nat}
    (hc : ∀ p ∈ rows, p.1 ≠ [c]) : charMap rows c = [c] := by
  unfold charMap
  cases hf : findRule rows [c] with
  | none => rfl
  | some p =>
    exact absurd ((findRule_some hf).2.eq_of_length (by rw [h1 p (findRule_some hf).1]; rfl))
      (hc p (findRule_some hf).1)

/-- The characters of the word before the positional rules: images of rows, or characters without
rows. -/
theorem mem_anywhere (h : LongOk l) {w : Str} (hw : Letters (isTail l) w) {b : Nat}
    (hb : b ∈ anywhere l w) : b ∈ images l ∨ (b ∉ keys l ∧ isTail l b = false) := by
  rw [(anywhere_hom h hw).1] at hb
  obtain ⟨c, hc, hb⟩ := List.mem_flatMap.1 hb
  by_cases hk : c ∈ keys l
  · exact Or.inl (List.mem_flatMap.2 ⟨c, List.mem_filter.2 ⟨hk, by simp [hw c hc]⟩, hb⟩)
  · rw [anywhere_keep h hk] at hb
    simp at hb
    exact Or.inr ⟨hb ▸ hk, hb ▸ hw c hc⟩

theorem nonfin_concat (rows : List Rule) (p : Str) (a : Nat) :
    nonfin rows (p ++ [a]) = p.flatMap (charMap rows) ++ [a] := by
  induction p with
  | nil => rfl
  | cons c p ih =>
    cases p with
    | nil => simp [nonfin]
    | cons d p =>
      simp only [List.cons_append] at ih ⊢
      rw [nonfin, ih]; simp [List.flatMap_cons]

theorem finFrom_concat (rows : List Rule) (p : Str) (a : Nat) :
    finFrom rows (p ++ [a]) = p ++ charMap rows a := by
  induction p with
  | nil => rfl
  | cons c p ih =>
    cases p with
    | nil => rfl
    | cons d p =>
      simp only [List.cons_append] at ih ⊢
      rw [finFrom, ih]

theorem fin_concat (rows : List Rule) {p : Str} (hp : p ≠ []) (a : Nat) :
    fin rows (p ++ [a]) = p ++ charMap rows a := by
  cases p with
  | nil => exact absurd rfl hp
  | cons c p => rw [List.cons_append, fin, finFrom_concat]; rfl

/-- Isolated rules do not apply to words of several letters. -/
theorem iso_long (hl : l ∈ Data.abjadLangs) {v : Str} (hv : Letters (isTail l) v) (h2 : 2 ≤ v.length) :
    iso (l.finalIsolated ++ l.isolated) v = v := by
  rw [iso_eq]
  cases hf : (l.finalIsolated ++ l.isolated).find? fun p => strEq p.1 v with
  | none => rfl
  | some p =>
    exfalso
    have he : p.1 = v := strEq_iff.1 (List.find?_some (p := fun p : Rule => strEq p.1 v) hf)
    have hm := List.mem_of_find?_eq_some hf
    cases v with
    | nil => simp at h2
    | cons c v =>
      cases v with
      | nil => simp at h2
      | cons d v =>
        have : isTail l d = true := by
          unfold isTail
          rw [memNat_iff]
          refine List.mem_flatMap.2 ⟨p, ?_, by simp [he]⟩
          rcases List.mem_append.1 hm with hm | hm <;> simp [hm]
        rw [hv d (by simp)] at this
        exact absurd this (by simp)

theorem positional_letters (hl : l ∈ Data.abjadLangs) {w : Str} (hw : Letters (isTail l) w) :
    let t := positional l (anywhere l w)
    (t.length = 1 → l.lang ≠ "prs") → positional l (anywhere l t) = t := by
  have h := longOk_of hl
  have ok := langOk_of hl
  have hmem := fun {b : Nat} (hb : b ∈ anywhere l w) => mem_anywhere h hw hb
  intro t
  rcases List.eq_nil_or_concat (anywhere l w) with hu | ⟨p, a, hu⟩
  · have : t = [] := by
      show positional l (anywhere l w) = []
      rw [hu]
      unfold positional
      simp only [nonfin, fin]
      rw [iso_eq]
      cases hf : (l.finalIsolated ++ l.isolated).find? fun p => strEq p.1 [] with
      | none => rfl
      | some p =>
        exact absurd (strEq_iff.1 (List.find?_some (p := fun p : Rule => strEq p.1 []) hf))
          (ok.is1 p (List.mem_of_find?_eq_some hf))
    intro _
    have e : anywhere l [] = [] := (anywhere_hom h (s := []) (fun c hc => by simp at hc)).1
    have ht : positional l (anywhere l w) = [] := this
    rw [this, e]
    rw [hu] at ht
    exact ht
  · rw [List.concat_eq_append] at hu
    cases p with
    | nil =>
      simp only [List.nil_append] at hu
      have ht : t = iso (l.finalIsolated ++ l.isolated) [a] := by
        show positional l (anywhere l w) = _
        rw [hu]; rfl
      intro hlen
      rcases hmem (b := a) (by rw [hu]; simp) with ha | ⟨hk, hta⟩
      · have hs := List.all_eq_true.1 short_all l hl
        simp only [Bool.or_eq_true, beq_iff_eq] at hs
        rcases hs with hs | hs
        · have := List.all_eq_true.1 hs a ha
          simp only [strEq_iff] at this
          rw [ht]; exact this
        · by_cases h1 : t.length = 1
          · exact absurd hs (hlen h1)
          · exfalso
            have := List.all_eq_true.1 prs_single l hl
            simp only [hs, bne_self_eq_false, Bool.false_or, List.all_eq_true] at this
            apply h1
            rw [ht, iso_eq]
            cases hf : (l.finalIsolated ++ l.isolated).find? fun p => strEq p.1 [a] with
            | none => rfl
            | some p => exact Nat.eq_of_beq_eq_true (this p (List.mem_of_find?_eq_some hf))
      · have ht' : t = [a] := by
          rw [ht, iso_eq]
          cases hf : (l.finalIsolated ++ l.isolated).find? fun p => strEq p.1 [a] with
          | none => rfl
          | some p =>
            have hm := List.mem_of_find?_eq_some hf
            exact absurd (strEq_iff.1 (List.find?_some (p := fun p : Rule => strEq p.1 [a]) hf))
              (not_key hk (rows := l.finalIsolated ++ l.isolated)
                (fun p hp => by rcases List.mem_append.1 hp with hp | hp <;> simp [hp]) p hm)
        rw [ht', anywhere_keep h hk]
        have : positional l [a] = iso (l.finalIsolated ++ l.isolated) [a] := rfl
        rw [this, ← ht, ht']
    | cons x p =>
      intro _
      -- stable images
      have nf : ∀ b ∈ x :: p, ∃ n, charMap l.nonfinal b = [n] ∧ isTail l n = false ∧
          anywhere l [n] = [n] ∧ charMap l.nonfinal n = [n] := by
        intro b hb
        rcases hmem (b := b) (by rw [hu]; exact List.mem_append_left _ hb) with hb' | ⟨hk, htb⟩
        · exact h.nf b hb'
        · have e := charMap_keep ok.nf1 (not_key hk fun p hp => by simp [hp])
          exact ⟨b, e, htb, anywhere_keep h hk, e⟩
      obtain ⟨e, he1, he2, he3, he4⟩ : ∃ n, charMap l.finalIsolated a = [n] ∧ isTail l n = false ∧
          anywhere l [n] = [n] ∧ charMap l.finalIsolated n = [n] := by
        rcases hmem (b := a) (by rw [hu]; simp) with hb' | ⟨hk, htb⟩
        · exact h.fi a hb'
        · have e := charMap_keep ok.fi1 (not_key hk fun p hp => by simp [hp])
          exact ⟨a, e, htb, anywhere_keep h hk, e⟩
      have key : ∀ q : Str, (∀ b ∈ q, ∃ n, charMap l.nonfinal b = [n] ∧ isTail l n = false ∧
          anywhere l [n] = [n] ∧ charMap l.nonfinal n = [n]) →
          (q.flatMap (charMap l.nonfinal)).length = q.length ∧
          ∀ n ∈ q.flatMap (charMap l.nonfinal), isTail l n = false ∧ anywhere l [n] = [n] ∧
            charMap l.nonfinal n = [n] := by
        intro q
        induction q with
        | nil => simp
        | cons b q ih =>
          intro hq
          obtain ⟨n, h1, h2⟩ := hq b (by simp)
          obtain ⟨i1, i2⟩ := ih fun c hc => hq c (List.mem_cons_of_mem _ hc)
          rw [List.flatMap_cons, h1]
          refine ⟨by simp [i1], fun m hm => ?_⟩
          rcases List.mem_append.1 hm with hm | hm
          · simp at hm; rw [hm]; exact h2
          · exact i2 m hm
      obtain ⟨k1, k2⟩ := key (x :: p) nf
      generalize hq : (x :: p).flatMap (charMap l.nonfinal) = q at k1 k2
      have hqne : q ≠ [] := by intro h0; rw [h0] at k1; simp at k1
      have hv : Letters (isTail l) (q ++ [e]) := by
        intro c hc
        rcases List.mem_append.1 hc with hc | hc
        · exact (k2 c hc).1
        · simp at hc; rw [hc]; exact he2
      have hlen : 2 ≤ (q ++ [e]).length := by simp at k1 ⊢; omega
      have ht : t = q ++ [e] := by
        show positional l (anywhere l w) = _
        rw [hu]
        unfold positional
        rw [nonfin_concat, hq, fin_concat _ hqne, he1, iso_long hl hv hlen]
      have fixA : ∀ q : Str, (∀ n ∈ q, anywhere l [n] = [n]) →
          q.flatMap (fun c => anywhere l [c]) = q := by
        intro q hq
        induction q with
        | nil => rfl
        | cons c q ih =>
          rw [List.flatMap_cons, hq c (by simp), ih fun d hd => hq d (List.mem_cons_of_mem _ hd)]; rfl
      have fixN : ∀ q : Str, (∀ n ∈ q, charMap l.nonfinal n = [n]) →
          q.flatMap (charMap l.nonfinal) = q := by
        intro q hq
        induction q with
        | nil => rfl
        | cons c q ih =>
          rw [List.flatMap_cons, hq c (by simp), ih fun d hd => hq d (List.mem_cons_of_mem _ hd)]; rfl
      rw [ht, (anywhere_hom h hv).1, fixA]
      · unfold positional
        rw [nonfin_concat, fixN q fun n hn => (k2 n hn).2.2, fin_concat _ hqne, he4,
          iso_long hl hv hlen]
      · intro n hn
        rcases List.mem_append.1 hn with hn | hn
        · exact (k2 n hn).2.1
        · simp at hn; rw [hn]; exact he3

/-! ## Presentation forms -/

/-- `c` is not a presentation form. -/
def NotForm (c : Nat) : Prop := ∀ p ∈ Data.arabPresentationForms, p.1 ≠ [c]

theorem forms_high : increasing 0xFB4F Data.arabPresentationForms = true := by decide +kernel

def lowRhs (rows : List Rule) : Bool := rows.all fun p => p.2.all fun c => Nat.ble c 0xFB4F

theorem forms_low : lowRhs Data.arabPresentationForms = true := by decide +kernel
theorem nfc_low : lowRhs Data.arabNfc = true := by decide +kernel
theorem vis_low : lowRhs Data.arabVisualNorm = true := by decide +kernel
theorem lang_low : (Data.abjadLangs.all fun l => lowRhs l.visualNorm && lowRhs l.nonfinal &&
    lowRhs l.finalIsolated && lowRhs l.isolated) = true := by decide +kernel

theorem lowRhs_iff {rows : List Rule} (h : lowRhs rows = true) : RhsOver NotForm rows := by
  intro p hp c hc q hq he
  simp only [lowRhs, List.all_eq_true, Nat.ble_eq] at h
  obtain ⟨d, hd, e⟩ := increasing_lt forms_high q hq
  rw [e] at he
  simp at he
  have := h p hp c hc
  omega

theorem pfMap_notForm (s : Str) : Over NotForm (pfMap s) := by
  intro d hd
  obtain ⟨c, _, hd⟩ := List.mem_flatMap.1 hd
  refine over_charMap (σ := NotForm) (lowRhs_iff forms_low) (fun h p hp he => ?_) d hd
  exact h p hp (by rw [he]; exact List.prefix_refl _)

theorem pfMap_id {s : Str} (h : Over NotForm s) : pfMap s = s := by
  induction s with
  | nil => rfl
  | cons c s ih =>
    unfold pfMap at ih ⊢
    rw [List.flatMap_cons, ih fun d hd => h d (List.mem_cons_of_mem _ hd),
      charMap_keep (increasing_single pf_increasing) (h c (by simp))]
    rfl

theorem visualNorm_notForm {l : AbjadData} (hl : l ∈ Data.abjadLangs) (s : Str) :
    Over NotForm (visualNorm l s) := by
  have h := List.all_eq_true.1 lang_low l hl
  simp only [Bool.and_eq_true] at h
  obtain ⟨⟨⟨h1, h2⟩, h3⟩, h4⟩ := h
  exact over_positional (lowRhs_iff h2) (lowRhs_iff h3) (lowRhs_iff h4) _
    (over_anywhere hl (lowRhs_iff nfc_low) (lowRhs_iff vis_low) (lowRhs_iff h1) _ (pfMap_notForm s))

theorem visualNorm_idem {l : AbjadData} (hl : l ∈ Data.abjadLangs) {w : Str}
    (hw : Letters (isTail l) (pfMap w))
    (hp : (visualNorm l w).length = 1 → l.lang ≠ "prs") :
    visualNorm l (visualNorm l w) = visualNorm l w := by
  have e : pfMap (visualNorm l w) = visualNorm l w := pfMap_id (visualNorm_notForm hl w)
  show positional l (anywhere l (pfMap (visualNorm l w))) = _
  rw [e]
  exact positional_letters hl hw hp

end Nisaba.Abjad
