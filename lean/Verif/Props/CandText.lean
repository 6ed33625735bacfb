import Verif.Model.CandText
import Verif.Props.LatticeText
/-!
# C119: lists of candidates written by one tool are read by the others
-/
namespace Nisaba.Props
open Nisaba Nisaba.CandText Nisaba.Extract
open Nisaba.LatticeText (Field fields fields_cons fields_last decimal_field decimal_ne_nil decimal_digit
  digitsValue digitsValue_decimal mapM_append_ok mapM_map_ok isDigit)
open Nisaba.ErrorRate (Err strJoin decimal)
open Nisaba.Kbest (words)

variable {κ : Type}

/-! ## Tables of candidates -/

/-- A table: rows with a label and candidates. -/
abbrev Table (κ : Type) := List (Str × List (Str × κ))

/-- The lines of a table: label, candidate and score, separated by tabs. -/
def tableLines (fmt : κ → Str) (t : Table κ) : List Str :=
  t.flatMap fun r => r.2.map fun c => r.1 ++ [9] ++ c.1 ++ [9] ++ fmt c.2

/-- Labels and candidates are fields, and no line reaches the limit of 51200 bytes. -/
def TableOk (fmt : κ → Str) (t : Table κ) : Prop :=
  ∀ r ∈ t, LatticeText.Field r.1 ∧ ∀ c ∈ r.2, LatticeText.Field c.1 ∧
    r.1.length + c.1.length + (fmt c.2).length < 51198

theorem fields_three (a b c : Str) (ha : LatticeText.Field a) (hb : LatticeText.Field b)
    (hc : LatticeText.Field c) : fields (a ++ [9] ++ b ++ [9] ++ c) = [a, b, c] := by
  have : a ++ [9] ++ b ++ [9] ++ c = a ++ 9 :: (b ++ 9 :: c) := by simp
  rw [this, fields_cons _ _ ha.2.1, fields_cons _ _ hb.2.1, fields_last _ hc.2.1]
  simp [ha.1, hb.1, hc.1]

/-- The rows as parsed. -/
def tableRows (rd : κ → κ) (t : Table κ) : List (Str × Str × κ) :=
  t.flatMap fun r => r.2.map fun c => (r.1, c.1, rd c.2)

theorem table_parse (fmt : κ → Str) (parse : Str → Option κ) (rd : κ → κ)
    (hf : ∀ v, LatticeText.Field (fmt v)) (hr : ∀ v, parse (fmt v) = some (rd v)) (t : Table κ)
    (h : TableOk fmt t) : (tableLines fmt t).mapM (parseCand parse) = .ok (tableRows rd t) := by
  induction t with
  | nil => rfl
  | cons r t ih =>
    unfold tableLines tableRows
    rw [List.flatMap_cons, List.flatMap_cons]
    refine mapM_append_ok _ _ _ _ _ ?_ (ih (fun x hx => h x (by simp [hx])))
    refine mapM_map_ok _ _ _ _ fun c hc => ?_
    obtain ⟨h1, h2⟩ := h r (by simp)
    unfold parseCand
    rw [fields_three _ _ _ h1 (h2 c hc).1 (hf c.2)]
    simp [hr]

theorem readLines_short (ls : List Str) (h : ∀ l ∈ ls, l ≠ [] ∧ 10 ∉ l ∧ l.length < 51200) :
    FileUtil.readLines (unlines ls) 51200 = some ls := by
  have := C51_lines_partial ls [] 51200 (fun l hm => (h l hm).2.1) (by simp) (by
    intro l hm
    have e : limit 51200 = 51200 := by decide
    rw [e]
    rcases List.mem_cons.1 hm with rfl | hm
    · simp
    · exact (h l hm).2.2)
  rw [List.append_nil] at this
  rw [this, List.filter_append, List.filter_eq_self.2]
  · simp
  · intro l hm
    have := (h l hm).1
    cases l with
    | nil => exact absurd rfl this
    | cons => rfl

theorem tableLines_ok (fmt : κ → Str) (hf : ∀ v, LatticeText.Field (fmt v)) (t : Table κ)
    (h : TableOk fmt t) : ∀ l ∈ tableLines fmt t, l ≠ [] ∧ 10 ∉ l ∧ l.length < 51200 := by
  intro l hm
  obtain ⟨r, hr, hm⟩ := List.mem_flatMap.1 hm
  obtain ⟨c, hc, rfl⟩ := List.mem_map.1 hm
  obtain ⟨h1, h2⟩ := h r hr
  obtain ⟨h3, h4⟩ := h2 c hc
  refine ⟨by simp, ?_, ?_⟩
  · simp [h1.2.2, h3.2.2, (hf c.2).2.2]
  · simp only [List.length_append, List.length_cons, List.length_nil]
    omega

theorem table_file (fmt : κ → Str) (parse : Str → Option κ) (rd : κ → κ)
    (hf : ∀ v, LatticeText.Field (fmt v)) (hr : ∀ v, parse (fmt v) = some (rd v)) (t : Table κ)
    (h : TableOk fmt t) : parseFile parse (unlines (tableLines fmt t)) = .ok (tableRows rd t) := by
  unfold parseFile
  rw [readLines_short _ (tableLines_ok fmt hf t h)]
  exact table_parse fmt parse rd hf hr t h

/-! ## Grouping -/

/-- Candidates with single spaces between words. -/
def tidy (l : List (Str × κ)) : List (Str × κ) := l.map fun c => (spaced c.1, c.2)

theorem readRow (st : Inputs κ) (i : Str) (cs : List (Str × κ)) (hne : cs ≠ [])
    (hw : ∀ c ∈ cs, words c.1 ≠ none) (hi : st.inputs.getLast? ≠ some i) :
    (cs.map fun c => (i, c.1, c.2)).foldlM readInput st =
      some ⟨st.inputs ++ [i], st.cands ++ [tidy cs]⟩ := by
  have key : ∀ (cs : List (Str × κ)) (I : List Str) (D : List (List (Str × κ))) (d : List (Str × κ)),
      (∀ c ∈ cs, words c.1 ≠ none) →
      (cs.map fun c => (i, c.1, c.2)).foldlM readInput ⟨I ++ [i], D ++ [d]⟩ =
        some ⟨I ++ [i], D ++ [d ++ tidy cs]⟩ := by
    intro cs I D d hw
    induction cs generalizing d with
    | nil => simp [tidy, pure]
    | cons c cs ih =>
      cases hc : words c.1 with
      | none => exact absurd hc (hw c (by simp))
      | some ws =>
        have hs : readInput ⟨I ++ [i], D ++ [d]⟩ (i, c.1, c.2) =
            some ⟨I ++ [i], D ++ [d ++ [(spaced c.1, c.2)]]⟩ := by
          simp [readInput, hc, addLast_snoc, spaced]
        rw [List.map_cons, List.foldlM_cons, hs]
        simp only [bind, Option.bind]
        rw [ih _ (fun x hx => hw x (by simp [hx]))]
        simp [tidy]
  match cs, hne with
  | c :: cs, _ =>
    cases hc : words c.1 with
    | none => exact absurd hc (hw c (by simp))
    | some ws =>
      have hs : readInput st (i, c.1, c.2) = some ⟨st.inputs ++ [i], st.cands ++ [[(spaced c.1, c.2)]]⟩ := by
        simp [readInput, hi, hc, addLast_snoc, spaced]
      rw [List.map_cons, List.foldlM_cons, hs]
      simp only [bind, Option.bind]
      rw [key cs _ _ _ (fun x hx => hw x (by simp [hx]))]
      simp [tidy]

theorem readRows (rd : κ → κ) (t : Table κ) (hne : ∀ r ∈ t, r.2 ≠ [])
    (hw : ∀ r ∈ t, ∀ c ∈ r.2, words c.1 ≠ none) (st : Inputs κ)
    (hd : t.IsChain (fun a b => a.1 ≠ b.1)) (hst : ∀ r ∈ t.head?, st.inputs.getLast? ≠ some r.1) :
    (tableRows rd t).foldlM readInput st =
      some ⟨st.inputs ++ t.map (·.1), st.cands ++ t.map fun r => tidy (r.2.map fun c => (c.1, rd c.2))⟩ := by
  induction t generalizing st with
  | nil => simp [tableRows, pure]
  | cons r t ih =>
    have e : tableRows rd (r :: t) =
        ((r.2.map fun c => (c.1, rd c.2)).map fun c => (r.1, c.1, c.2)) ++ tableRows rd t := by
      simp [tableRows, Function.comp_def]
    rw [e, List.foldlM_append, readRow st r.1 _ (by simpa using hne r (by simp))
      (by
        intro c hc
        obtain ⟨d, hd', rfl⟩ := List.mem_map.1 hc
        exact hw r (by simp) d hd') (hst r (by simp))]
    simp only [bind, Option.bind]
    rw [ih (fun x hx => hne x (by simp [hx])) (fun x hx => hw x (by simp [hx])) _ (List.IsChain.tail hd)]
    · simp
    · intro x hx
      simp only [List.getLast?_append, List.getLast?_singleton, Option.some_or, ne_eq, Option.some.injEq]
      cases t with
      | nil => simp at hx
      | cons y t =>
        simp only [List.head?_cons, Option.mem_def, Option.some.injEq] at hx
        subst hx
        exact (List.isChain_cons_cons.1 hd).1

theorem table_read (fmt : κ → Str) (parse : Str → Option κ) (rd : κ → κ)
    (hf : ∀ v, LatticeText.Field (fmt v)) (hr : ∀ v, parse (fmt v) = some (rd v)) (t : Table κ)
    (h : TableOk fmt t) (hne : ∀ r ∈ t, r.2 ≠ []) (hw : ∀ r ∈ t, ∀ c ∈ r.2, words c.1 ≠ none)
    (hd : t.IsChain (fun a b => a.1 ≠ b.1)) :
    readInputsFile parse (unlines (tableLines fmt t)) =
      .ok (t.map fun r => tidy (r.2.map fun c => (c.1, rd c.2))) := by
  unfold readInputsFile
  rw [table_file fmt parse rd hf hr t h]
  simp only [readInputs]
  rw [readRows rd t hne hw {} hd (by simp)]
  simp

/-! ## Numbers -/

theorem decimal_inj {a b : Nat} (h : decimal a = decimal b) : a = b := by
  rw [← digitsValue_decimal a, h, digitsValue_decimal]

theorem minus_decimal (a : Nat) (s : Str) : decimal a ≠ 45 :: s := by
  intro h
  have := decimal_digit a 45 (by simp [h])
  revert this
  decide

theorem intText_inj {a b : Int} (h : intText a = intText b) : a = b := by
  unfold intText at h
  split at h <;> split at h
  · have := decimal_inj (List.cons.inj h).2; omega
  · exact absurd h.symm (minus_decimal _ _)
  · exact absurd h (minus_decimal _ _)
  · have := decimal_inj h; omega

theorem intText_field (a : Int) : LatticeText.Field (intText a) := by
  obtain ⟨h1, h2, h3⟩ := decimal_field a.natAbs
  unfold intText
  split
  · exact ⟨by simp, by simp [h2], by simp [h3]⟩
  · exact ⟨h1, h2, h3⟩

/-! ## C119 -/

/-- Scores are written as fields and read as `rd` of them. -/
structure ScoreText (fmt : κ → Str) (parse : Str → Option κ) (rd : κ → κ) : Prop where
  field : ∀ v, LatticeText.Field (fmt v)
  read : ∀ v, parse (fmt v) = some (rd v)

/-- A candidate with label `l` that can be written and read: it is valid UTF-8, not empty and without
tab and line feed, and the line is shorter than 51200 bytes. -/
def CandOk (fmt : κ → Str) (l : Str) (c : Str × κ) : Prop :=
  LatticeText.Field c.1 ∧ words c.1 ≠ none ∧ l.length + c.1.length + (fmt c.2).length < 51198

/-- Candidates as they should be read: with single spaces between words. -/
def readBack (rd : κ → κ) (l : List (Str × κ)) : List (Str × κ) := l.map fun c => (spaced c.1, rd c.2)

theorem tidy_rd (rd : κ → κ) (l : List (Str × κ)) : tidy (l.map fun c => (c.1, rd c.2)) = readBack rd l := by
  simp [tidy, readBack, Function.comp_def]

theorem extractor_table (fmt : κ → Str) (kbest : Int) (hk : 1 < kbest) (full : Bool)
    (ts : List (Extracted κ)) :
    extractorOutput fmt kbest true full ts =
      unlines (tableLines fmt (ts.map fun t => (if full then t.words else intText t.index, t.best))) := by
  induction ts with
  | nil => rfl
  | cons t ts ih =>
    have e : extractorOutput fmt kbest true full (t :: ts) =
        t.best.flatMap (extractLine fmt kbest true full t) ++ extractorOutput fmt kbest true full ts := by
      simp [extractorOutput]
    rw [e, ih, List.map_cons]
    unfold tableLines unlines
    rw [List.flatMap_cons, List.flatMap_append]
    congr 1
    induction t.best with
    | nil => rfl
    | cons c cs ih2 =>
      rw [List.flatMap_cons, ih2, List.map_cons, List.flatMap_cons]
      simp [extractLine, hk]

/-- C119, the extractor: with scores and more than one result the ensemble reads the candidates of
every text, if neighbouring texts have different indices (or different words, if these are shown). -/
theorem C119_extractor_partial (fmt : κ → Str) (parse : Str → Option κ) (rd : κ → κ)
    (hs : ScoreText fmt parse rd) (kbest : Int) (hk : 1 < kbest) (full : Bool) (ts : List (Extracted κ))
    (hne : ∀ t ∈ ts, t.best ≠ [])
    (hok : ∀ t ∈ ts, ∀ c ∈ t.best, CandOk fmt (if full then t.words else intText t.index) c)
    (hw : full = true → ∀ t ∈ ts, LatticeText.Field t.words)
    (hd : ts.IsChain (fun a b => if full then a.words ≠ b.words else a.index ≠ b.index)) :
    readInputsFile parse (extractorOutput fmt kbest true full ts) =
      .ok (ts.map fun t => readBack rd t.best) := by
  rw [extractor_table fmt kbest hk, table_read fmt parse rd hs.field hs.read]
  · simp [tidy_rd]
  · intro r hr
    obtain ⟨t, ht, rfl⟩ := List.mem_map.1 hr
    refine ⟨?_, fun c hc => ⟨(hok t ht c hc).1, (hok t ht c hc).2.2⟩⟩
    cases full with
    | true => exact hw rfl t ht
    | false => exact intText_field _
  · intro r hr
    obtain ⟨t, ht, rfl⟩ := List.mem_map.1 hr
    exact hne t ht
  · intro r hr
    obtain ⟨t, ht, rfl⟩ := List.mem_map.1 hr
    exact fun c hc => (hok t ht c hc).2.1
  · rw [List.isChain_map]
    refine hd.imp ?_
    intro a b hab
    cases full with
    | true => simpa using hab
    | false =>
      simp only [Bool.false_eq_true, if_false, ne_eq] at hab ⊢
      exact fun h => hab (intText_inj h)

theorem lists_table (fmt : κ → Str) (lists : List (List (Str × κ))) :
    listsOutput fmt lists = unlines (tableLines fmt (lists.zipIdx.map fun p => (decimal p.2, p.1))) := by
  unfold listsOutput tableLines unlines
  generalize lists.zipIdx = L
  induction L with
  | nil => rfl
  | cons p L ih =>
    rw [List.flatMap_cons, ih, List.map_cons, List.flatMap_cons, List.flatMap_append]
    congr 1
    induction p.1 with
    | nil => rfl
    | cons c cs ih2 =>
      rw [List.flatMap_cons, ih2, List.map_cons, List.flatMap_cons]
      simp [strJoin]

theorem tableLines_filter (fmt : κ → Str) (t : Table κ) :
    tableLines fmt t = tableLines fmt (t.filter fun r => !r.2.isEmpty) := by
  unfold tableLines
  induction t with
  | nil => rfl
  | cons r t ih =>
    rw [List.flatMap_cons, ih, List.filter_cons]
    cases h : r.2 with
    | nil => simp
    | cons c cs => simp [h]

/-- C119, the ensemble and the rejoiner: what they write is read by the ensemble as the candidates of
the texts that have any; see `C119_lists_violated`. -/
theorem C119_lists_partial (fmt : κ → Str) (parse : Str → Option κ) (rd : κ → κ)
    (hs : ScoreText fmt parse rd) (lists : List (List (Str × κ)))
    (hok : ∀ p ∈ lists.zipIdx, ∀ c ∈ p.1, CandOk fmt (decimal p.2) c) :
    readInputsFile parse (listsOutput fmt lists) =
      .ok ((lists.filter fun l => !l.isEmpty).map (readBack rd)) := by
  rw [lists_table, tableLines_filter, table_read fmt parse rd hs.field hs.read]
  · simp only [tidy_rd]
    have : ∀ (L : List (List (Str × κ))) (k : Nat),
        (((L.zipIdx k).map fun p => (decimal p.2, p.1)).filter fun r => !r.2.isEmpty).map
          (fun r => readBack rd r.2) = (L.filter fun l => !l.isEmpty).map (readBack rd) := by
      intro L
      induction L with
      | nil => intro k; rfl
      | cons l L ih =>
        intro k
        rw [List.zipIdx_cons, List.map_cons, List.filter_cons, List.filter_cons]
        cases l with
        | nil => simpa using ih (k + 1)
        | cons c cs => simpa using ih (k + 1)
    rw [this]
  · intro r hr
    obtain ⟨p, hp, rfl⟩ := List.mem_map.1 (List.mem_filter.1 hr).1
    exact ⟨decimal_field _, fun c hc => ⟨(hok p hp c hc).1, (hok p hp c hc).2.2⟩⟩
  · intro r hr h
    have := (List.mem_filter.1 hr).2
    rw [h] at this
    simp at this
  · intro r hr
    obtain ⟨p, hp, rfl⟩ := List.mem_map.1 (List.mem_filter.1 hr).1
    exact fun c hc => (hok p hp c hc).2.1
  · refine List.Pairwise.isChain (List.Pairwise.filter _ ?_)
    rw [List.pairwise_map]
    have : (lists.zipIdx.map (·.2)).Pairwise (· < ·) := by
      have e : lists.zipIdx.map (·.2) = List.range lists.length := by
        rw [List.range_eq_range']
        exact List.zipIdx_map_snd 0 _
      rw [e]
      exact List.pairwise_lt_range
    rw [List.pairwise_map] at this
    refine this.imp ?_
    intro a b hab h
    have := decimal_inj h
    omega

/-- A text without candidates is lost: those after it move up, and the files of two systems no longer
agree. -/
theorem C119_lists_violated :
    readInputsFile natParse (listsOutput natFmt [[], [([97], 1)]]) = .ok [[([97], 1)]] := by
  rfl

/-- With the words of the text instead of the index, a text that comes twice in a row is read as one
text. -/
theorem C119_full_input_violated :
    readInputsFile natParse (extractorOutput natFmt 2 true true
      [⟨0, [97], [([120], 1), ([121], 2)]⟩, ⟨1, [97], [([120], 1), ([121], 2)]⟩]) =
      .ok [[([120], 1), ([121], 2), ([120], 1), ([121], 2)]] := by
  rfl

/-- With at most one result the index is not written, and the file of the extractor cannot be read,
with or without scores. -/
theorem C119_single_violated (fmt : κ → Str) (parse : Str → Option κ) (hf : ∀ v, LatticeText.Field (fmt v))
    (kbest : Int) (hk : kbest ≤ 1) (score full : Bool) (ts : List (Extracted κ))
    (hne : ∃ t ∈ ts, t.best ≠ [])
    (hok : ∀ t ∈ ts, ∀ c ∈ t.best, LatticeText.Field c.1 ∧ c.1.length + (fmt c.2).length < 51199) :
    readInputsFile parse (extractorOutput fmt kbest score full ts) = .error .check := by
  have e : extractorOutput fmt kbest score full ts = unlines (ts.flatMap fun t => t.best.map fun c =>
      if score then c.1 ++ [9] ++ fmt c.2 else c.1) := by
    clear hok hne
    induction ts with
    | nil => rfl
    | cons t ts ih =>
      have e : extractorOutput fmt kbest score full (t :: ts) =
          t.best.flatMap (extractLine fmt kbest score full t) ++ extractorOutput fmt kbest score full ts := by
        simp [extractorOutput]
      rw [e, ih]
      unfold unlines
      rw [List.flatMap_cons, List.flatMap_append]
      congr 1
      induction t.best with
      | nil => rfl
      | cons c cs ih2 =>
        rw [List.flatMap_cons, ih2, List.map_cons, List.flatMap_cons]
        simp [extractLine, Int.not_lt.2 hk]
  have hlines : ∀ l ∈ ts.flatMap (fun t => t.best.map fun c => if score then c.1 ++ [9] ++ fmt c.2 else c.1),
      (l ≠ [] ∧ 10 ∉ l ∧ l.length < 51200) ∧ parseCand parse l = .error .check := by
    intro l hl
    obtain ⟨t, ht, hl⟩ := List.mem_flatMap.1 hl
    obtain ⟨c, hc, rfl⟩ := List.mem_map.1 hl
    obtain ⟨h1, h2⟩ := hok t ht c hc
    have h3 := hf c.2
    cases score with
    | true =>
      simp only [if_true]
      refine ⟨⟨by simp, by simp [h1.2.2, h3.2.2], by simp; omega⟩, ?_⟩
      have : c.1 ++ [9] ++ fmt c.2 = c.1 ++ 9 :: fmt c.2 := by simp
      unfold parseCand
      rw [this, fields_cons _ _ h1.2.1, fields_last _ h3.2.1]
      simp [h1.1, h3.1]
    | false =>
      simp only [Bool.false_eq_true, if_false]
      refine ⟨⟨h1.1, h1.2.2, by omega⟩, ?_⟩
      unfold parseCand
      rw [fields_last _ h1.2.1]
      simp [h1.1]
  unfold readInputsFile parseFile
  rw [e, readLines_short _ (fun l hl => (hlines l hl).1)]
  simp only
  obtain ⟨t, ht, hb⟩ := hne
  have hne : ts.flatMap (fun t => t.best.map fun c => if score then c.1 ++ [9] ++ fmt c.2 else c.1) ≠ [] := by
    intro h
    rw [List.flatMap_eq_nil_iff] at h
    have := h t ht
    simp at this
    exact hb this
  generalize ts.flatMap (fun t => t.best.map fun c => if score then c.1 ++ [9] ++ fmt c.2 else c.1) = ls
    at hlines hne
  match ls, hne with
  | l :: ls, _ =>
    rw [List.mapM_cons, (hlines l (by simp)).2]
    rfl

/-- A text of the extractor as a part of text `y.2`. -/
def asPart (rd : Rat → Rat) (y : Extracted Rat × Nat) : Nisaba.Props.Part :=
  ⟨intText y.1.index, y.1.best.map fun c => (c.1, rd c.2), y.2⟩

/-- C119, the rejoiner: with scores and more than one result the rejoiner reads what the extractor
wrote as the parts of the texts that the other file names. -/
theorem C119_rejoiner (fmt : Rat → Str) (parse : Str → Option Rat) (rd : Rat → Rat)
    (hs : ScoreText fmt parse rd) (kbest k : Int) (hk : 1 < kbest)
    (xs : List (Extracted Rat × Nat)) (x : Extracted Rat × Nat)
    (hok : ∀ y ∈ xs ++ [x], ∀ c ∈ y.1.best, CandOk fmt (intText y.1.index) c)
    (hn : Numbered ((xs ++ [x]).map (asPart rd))) :
    ∃ n, rejoinerFile parse (extractorOutput fmt kbest true false ((xs ++ [x]).map (·.1)))
        ((xs ++ [x]).map (·.2)) k =
      .ok ((List.range (x.2 + 1)).map (fun t => ((xs ++ [x]).filter (fun y => y.2 == t)).map
        (fun y => y.1.best.map fun c => (c.1, rd c.2))), n) ∧ (0 < k → n = k) := by
  have e0 : (xs ++ [x]).map (asPart rd) = xs.map (asPart rd) ++ [asPart rd x] := by simp
  rw [e0] at hn
  obtain ⟨n, h1, h2, _⟩ := C54_groups_partial _ _ hn k
  refine ⟨n, ?_, h2⟩
  rw [← e0] at h1
  unfold rejoinerFile
  rw [extractor_table fmt kbest hk, table_file fmt parse rd hs.field hs.read]
  · simp only
    have e1 : tableRows rd (((xs ++ [x]).map (·.1)).map fun t =>
        ((if (false : Bool) = true then t.words else intText t.index), t.best)) =
        ((xs ++ [x]).map (asPart rd)).flatMap Part.lines := by
      generalize xs ++ [x] = L
      clear h1 e0 hok
      induction L with
      | nil => rfl
      | cons y L ih =>
        simp only [tableRows, List.map_cons, List.flatMap_cons] at ih ⊢
        rw [ih]
        simp [Part.lines, asPart, Function.comp_def]
    have e2 : (xs ++ [x]).map (·.2) = ((xs ++ [x]).map (asPart rd)).map (·.text) := by
      rw [List.map_map]; rfl
    rw [e1, e2, h1]
    congr 1
    refine Prod.ext ?_ rfl
    refine List.map_congr_left fun t _ => ?_
    unfold partsOf
    rw [List.filter_map, List.map_map]
    rfl
  · intro r hr
    obtain ⟨t, ht, rfl⟩ := List.mem_map.1 hr
    obtain ⟨y, hy, rfl⟩ := List.mem_map.1 ht
    exact ⟨intText_field _, fun c hc => ⟨(hok y hy c hc).1, (hok y hy c hc).2.2⟩⟩

/-! ## Cases -/

/-- Scores that are natural numbers below 1000. -/
theorem natScore : ScoreText (fun n : Nat => decimal (n % 1000)) (fun s => some (digitsValue s)) (· % 1000) :=
  ⟨fun _ => decimal_field _, fun v => by simp [digitsValue_decimal]⟩

/-- Two texts, the first with two candidates. -/
def twoTexts : List (Extracted Nat) := [⟨0, [97], [([120], 1), ([121, 32, 122], 2)]⟩, ⟨2, [98], [([120], 3)]⟩]

example : readInputsFile (fun s => some (digitsValue s))
      (extractorOutput (fun n : Nat => decimal (n % 1000)) 5 true false twoTexts) =
    .ok [[([120], 1), ([121, 32, 122], 2)], [([120], 3)]] := by
  have := C119_extractor_partial _ _ _ natScore 5 (by decide) false twoTexts (by decide)
    (by unfold CandOk LatticeText.Field; decide) (by simp) (by simp [twoTexts])
  rw [this]
  decide

example : readInputsFile (fun s => some (digitsValue s))
      (listsOutput (fun n : Nat => decimal (n % 1000)) [[([120], 1)], [([121], 2)]]) =
    .ok [[([120], 1)], [([121], 2)]] := by
  have := C119_lists_partial _ _ _ natScore [[([120], 1)], [([121], 2)]]
    (by unfold CandOk LatticeText.Field; decide)
  rw [this]
  decide

example : readInputsFile natParse (extractorOutput natFmt 1 true false twoTexts) = .error .check :=
  C119_single_violated _ _ (fun _ => decimal_field _) 1 (by decide) true false twoTexts (by decide)
    (by unfold LatticeText.Field; decide)

/-- A text in two parts. -/
example : ∃ n, rejoinerFile (fun s => some (digitsValue s : Rat))
      (extractorOutput (fun r : Rat => decimal r.num.natAbs) 2 true false
        [⟨0, [], [([120], 1)]⟩, ⟨1, [], [([121], 2)]⟩]) [0, 0] 7 =
    .ok ([[[([120], 1)], [([121], 2)]]], n) := by
  obtain ⟨n, h, _⟩ := C119_rejoiner (fun r : Rat => decimal r.num.natAbs) (fun s => some (digitsValue s : Rat))
    (fun r => (r.num.natAbs : Rat)) ⟨fun _ => decimal_field _, fun v => by simp [digitsValue_decimal]⟩ 2 7
    (by decide) [(⟨0, [], [([120], 1)]⟩, 0)] (⟨1, [], [([121], 2)]⟩, 0)
    (by unfold CandOk LatticeText.Field; decide)
    (.snoc [] _ _ (.one _ rfl (by decide) (by simp [asPart])) (.inl rfl) (by decide) (by decide)
      (by simp [asPart]))
  refine ⟨n, h.trans ?_⟩
  simp [List.range_succ]

end Nisaba.Props
