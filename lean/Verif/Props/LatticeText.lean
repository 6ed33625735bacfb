import Verif.Lemmas.LatticeText
import Verif.Props.Extract
/-!
# C118: what the decoder writes, the k-best extractor reads
-/
namespace Nisaba.Props
open Nisaba Nisaba.Fst Nisaba.LatticeText Nisaba.Extract Nisaba.Utf8
open Nisaba.ErrorRate (Err strJoin decimal)
open Nisaba.Kbest (words)

variable {κ : Type}

/-! ## Words of a line are fields -/

theorem pieces_mem (delims : Nat → Bool) (cs : List Nat) :
    ∀ p ∈ Kbest.pieces delims cs, ∀ c ∈ p, delims c = false := by
  induction cs with
  | nil => simp [Kbest.pieces]
  | cons d cs ih =>
    simp only [Kbest.pieces]
    split
    · intro p hp c hc
      rcases List.mem_cons.1 hp with rfl | hp
      · simp at hc
      · exact ih p hp c hc
    · rename_i hd
      cases h : Kbest.pieces delims cs with
      | nil => simpa using hd
      | cons q qs =>
        rw [h] at ih
        intro p hp c hc
        rcases List.mem_cons.1 hp with rfl | hp
        · rcases List.mem_cons.1 hc with rfl | hc
          · simpa using hd
          · exact ih q (by simp) c hc
        · exact ih p (by simp [hp]) c hc

theorem small_encodeRaw {b c : Nat} (hb : b < 0x80) (h : b ∈ encodeRaw c) : b = c := by
  unfold encodeRaw at h
  split at h
  · simpa using h
  · split at h
    · simp at h; omega
    · split at h
      · simp at h; omega
      · simp at h; omega

theorem small_encodeText {b : Nat} {cs : List Nat} (hb : b < 0x80) (h : b ∈ encodeText cs) : b ∈ cs := by
  unfold encodeText at h
  obtain ⟨c, hc, hm⟩ := List.mem_flatMap.1 h
  rw [small_encodeRaw hb hm]
  exact hc

/-- Words have no tabs and no line feeds. -/
theorem words_field {line : Str} {ws : List Str} (h : words line = some ws) : ∀ w ∈ ws, Field w := by
  obtain ⟨cs, rfl, hcs⟩ := Kbest.text_of_words h
  rw [Kbest.words_eq cs hcs] at h
  cases h
  intro w hw
  obtain ⟨p, hp, rfl⟩ := List.mem_map.1 hw
  unfold Kbest.wordsOf at hp
  obtain ⟨hm, hne⟩ := List.mem_filter.1 hp
  have hd := pieces_mem whitespaceDelimiter cs p hm
  refine ⟨?_, ?_, ?_⟩
  · rw [Ne, Kbest.encodeText_nil_iff]
    rintro rfl
    simp at hne
  · intro h9
    have := hd 9 (small_encodeText (by decide) h9)
    revert this
    decide
  · intro h9
    have := hd 10 (small_encodeText (by decide) h9)
    revert this
    decide

theorem find_spec {t : SymTab} {w : Str} (h : w ∈ t) :
    ∃ l, t.find w = some l ∧ t[l]? = some w ∧ (t.head? ≠ some w → l ≠ 0) := by
  unfold SymTab.find
  cases hf : t.idxOf? w with
  | none => rw [List.idxOf?_eq_none_iff] at hf; exact absurd h hf
  | some l =>
    have hl : t[l]? = some w := by
      unfold List.idxOf? at hf
      have := List.findIdx?_eq_some_iff_getElem.1 hf
      obtain ⟨h1, h2, _⟩ := this
      rw [List.getElem?_eq_getElem h1]
      simpa using h2
    refine ⟨l, rfl, hl, ?_⟩
    rintro h0 rfl
    rw [← List.head?_eq_getElem?] at hl
    exact h0 hl

/-! ## C118 -/

/-- The lines to decode: those that do not start with `#`, numbered from 0. -/
def toDecode (lines : List Str) : List (Str × Nat) := (lines.filter (·.head? ≠ some 35)).zipIdx

/-- The texts that have words: index and words. -/
def texts (lines : List Str) : List (Nat × List Str) :=
  (toDecode lines).filterMap fun p =>
    match words p.1 with
    | some (w :: ws) => some (p.2, w :: ws)
    | _ => none

/-- A line that the decoder can handle, with the context `C`: it is valid UTF-8, its words have
candidates and are in the symbol table, none of them is the epsilon symbol, and the candidates are
fields (not empty, without tab and line feed); words, candidates and weights are not too long for a
line. -/
def LineOk (fmt : κ → Str) (C : Context κ) (line : Str) : Prop :=
  ∃ ws, words line = some ws ∧ ws.length ≤ 2 ^ 31 ∧
    ∀ w ∈ ws, C.cands w ≠ [] ∧ w ∈ C.isyms ∧ C.isyms.head? ≠ some w ∧
      ∀ c ∈ C.cands w, Field (symName C.osyms c.1) ∧
        w.length + (symName C.osyms c.1).length + (fmt c.2).length ≤ 51000

/-- Candidates of a text, as they should be read: names and weights. -/
def readCands (rd : κ → κ) (C : Context κ) (ws : List Str) : List (List (Str × κ)) :=
  ws.map fun w => (C.cands w).map fun c => (symName C.osyms c.1, rd c.2)

/-- Lines written for a text. -/
def linesOf (fmt : κ → Str) (C : Nat → Context κ) (p : Str × Nat) : List Str :=
  printed fmt (C p.2).isyms (C p.2).osyms (decimal p.2) 0 (labelled (C p.2) ((words p.1).getD []))

theorem symName_find {C : Context κ} {w : Str} (h : w ∈ C.isyms) :
    symName C.isyms ((C.isyms.find w).getD 0) = w := by
  obtain ⟨l, h1, h2, _⟩ := find_spec h
  rw [h1]
  simp [symName, h2]

theorem LineOk.sound {fmt : κ → Str} {C : Context κ} {line : Str} (h : LineOk fmt C line) (i : Nat)
    (hi : i < 2 ^ 31) :
    Sound fmt C.isyms C.osyms i 0 (labelled C ((words line).getD [])) := by
  obtain ⟨ws, h1, h2, h3⟩ := h
  have hf := words_field h1
  rw [h1]
  simp only [Option.getD_some]
  refine ⟨hi, by simpa [labelled] using h2, ?_, ?_, ?_⟩
  · intro p hp
    obtain ⟨w, hw, rfl⟩ := List.mem_map.1 hp
    exact (h3 w hw).1
  · intro p hp
    obtain ⟨w, hw, rfl⟩ := List.mem_map.1 hp
    simp only [symName_find (h3 w hw).2.1]
    exact hf w hw
  · intro p hp
    obtain ⟨w, hw, rfl⟩ := List.mem_map.1 hp
    exact fun c hc => ((h3 w hw).2.2.2 c hc).1

theorem LineOk.transliterate {fmt : κ → Str} {C : Context κ} {line : Str} (h : LineOk fmt C line) (i : Nat)
    (hi : i < 2 ^ 31) :
    transliterate fmt C line i = some (.ok (unlines
      (printed fmt C.isyms C.osyms (decimal i) 0 (labelled C ((words line).getD []))))) := by
  have hs := h.sound i hi
  obtain ⟨ws, h1, h2, h3⟩ := h
  unfold LatticeText.transliterate
  rw [h1] at hs ⊢
  simp only [Option.getD_some] at hs ⊢
  rw [buildFst_eq]
  · simp only
    rw [print_eq]
    exact hs.ne
  · intro w hw
    obtain ⟨l, e1, _, e3⟩ := find_spec (h3 w hw).2.1
    exact ⟨(h3 w hw).1, l, e1, e3 (h3 w hw).2.2.1⟩

theorem concat_eq (fmt : κ → Str) (C : Nat → Context κ) (L : List (Str × Nat))
    (h : ∀ p ∈ L, LineOk fmt (C p.2) p.1 ∧ p.2 < 2 ^ 31) :
    concatResults (L.map fun p => transliterate fmt (C p.2) p.1 p.2) =
      some (.ok (unlines (L.flatMap (linesOf fmt C)))) := by
  induction L with
  | nil => rfl
  | cons p L ih =>
    rw [List.map_cons, (h p (by simp)).1.transliterate p.2 (h p (by simp)).2]
    simp only [concatResults]
    rw [ih (fun q hq => h q (by simp [hq]))]
    simp [unlines, linesOf]

theorem parse_eq (fmt : κ → Str) (parse : Str → Option κ) (rd : κ → κ) (hf : ∀ v, Field (fmt v))
    (hr : ∀ v, parse (fmt v) = some (rd v)) (C : Nat → Context κ) (L : List (Str × Nat))
    (h : ∀ p ∈ L, LineOk fmt (C p.2) p.1 ∧ p.2 < 2 ^ 31) :
    (L.flatMap (linesOf fmt C)).mapM (parseLine parse) =
      .ok (L.flatMap fun p => linesFrom p.2 0 (sourcePositions rd (C p.2).isyms (C p.2).osyms
        (labelled (C p.2) ((words p.1).getD [])))) := by
  induction L with
  | nil => rfl
  | cons p L ih =>
    rw [List.flatMap_cons, List.flatMap_cons]
    exact mapM_append_ok _ _ _ _ _
      (parse_printed fmt parse rd _ _ hf hr p.2 0 _ ((h p (by simp)).1.sound p.2 (h p (by simp)).2))
      (ih (fun q hq => h q (by simp [hq])))

/-- The text with index `t.1` and words `t.2` as a source of the extractor. -/
def sourceOf (rd : κ → κ) (C : Nat → Context κ) (t : Nat × List Str) : Source κ :=
  ⟨t.1, sourcePositions rd (C t.1).isyms (C t.1).osyms (labelled (C t.1) t.2)⟩

theorem sources_eq (rd : κ → κ) (C : Nat → Context κ) (L : List (Str × Nat)) :
    (L.flatMap fun p => linesFrom (κ := κ) p.2 0 (sourcePositions rd (C p.2).isyms (C p.2).osyms
        (labelled (C p.2) ((words p.1).getD [])))) =
      ((L.filterMap fun p => match words p.1 with
        | some (w :: ws) => some (p.2, w :: ws)
        | _ => none).map (sourceOf rd C)).flatMap Source.lines := by
  induction L with
  | nil => rfl
  | cons p L ih =>
    rw [List.flatMap_cons, ih, List.filterMap_cons]
    cases h : words p.1 with
    | none => simp [labelled, sourcePositions, linesFrom]
    | some ws =>
      cases ws with
      | nil => simp [labelled, sourcePositions, linesFrom]
      | cons w ws => simp [sourceOf, Source.lines]

/-- C118: when all lines are in order (`LineOk`), and `fmt` writes a weight as a field that `parse`
reads as `rd` of it, the decoder writes a file from which the extractor gets, for every text with
words and in order: the candidates of every word with their weights, the words joined by single
spaces, and the index of the text among the lines that do not start with `#`. -/
theorem C118_roundtrip (fmt : κ → Str) (parse : Str → Option κ) (rd : κ → κ) (hf : ∀ v, Field (fmt v))
    (hr : ∀ v, parse (fmt v) = some (rd v)) (C : Nat → Context κ) (lines : List Str)
    (hn : lines.length ≤ 2 ^ 31) (hl : ∀ p ∈ toDecode lines, LineOk fmt (C p.2) p.1) :
    ∃ file, runDecoder fmt C lines = some (.ok file) ∧
      initFile parse file = .ok ((texts lines).map (fun t => readCands rd (C t.1) t.2),
        (texts lines).map (fun t => strJoin [32] t.2), (texts lines).map (fun t => (t.1 : Int))) := by
  have hidx : ∀ p ∈ toDecode lines, p.2 < 2 ^ 31 := by
    rintro ⟨l, i⟩ hp
    have := (List.mem_zipIdx hp).2.1
    have h2 := List.length_filter_le (fun x : Str => decide (x.head? ≠ some 35)) lines
    simp only at this ⊢
    omega
  have hok : ∀ p ∈ toDecode lines, LineOk fmt (C p.2) p.1 ∧ p.2 < 2 ^ 31 := fun p hp => ⟨hl p hp, hidx p hp⟩
  refine ⟨unlines ((toDecode lines).flatMap (linesOf fmt C)), concat_eq fmt C _ hok, ?_⟩
  have hline : ∀ l ∈ (toDecode lines).flatMap (linesOf fmt C), l ≠ [] ∧ 10 ∉ l ∧ l.length ≤ 51000 + 24 := by
    intro l hm
    obtain ⟨p, hp, hm⟩ := List.mem_flatMap.1 hm
    refine line_printed fmt _ _ hf p.2 0 51000 _ ((hl p hp).sound p.2 (hidx p hp)) ?_ l hm
    obtain ⟨ws, h1, _, h3⟩ := hl p hp
    rw [h1]
    intro q hq c hc
    obtain ⟨w, hw, rfl⟩ := List.mem_map.1 hq
    simp only [symName_find (h3 w hw).2.1]
    exact ((h3 w hw).2.2.2 c hc).2
  have hread : FileUtil.readLines (unlines ((toDecode lines).flatMap (linesOf fmt C))) 51200 =
      some ((toDecode lines).flatMap (linesOf fmt C)) := by
    have := C51_lines_partial ((toDecode lines).flatMap (linesOf fmt C)) [] 51200
      (fun l hm => (hline l hm).2.1) (by simp) (by
        intro l hm
        have e : limit 51200 = 51200 := by decide
        rw [e]
        rcases List.mem_cons.1 hm with rfl | hm
        · simp
        · have := (hline l hm).2.2
          omega)
    rw [List.append_nil] at this
    rw [this, List.filter_append, List.filter_eq_self.2]
    · simp
    · intro l hm
      have := (hline l hm).1
      cases l with
      | nil => exact absurd rfl this
      | cons => rfl
  unfold initFile
  rw [hread]
  simp only [initText]
  rw [parse_eq fmt parse rd hf hr C _ hok, sources_eq]
  simp only
  have hpw : (texts lines).Pairwise (fun a b => a.1 < b.1) := by
    unfold texts
    refine List.Pairwise.filterMap _ (R := fun a b : Str × Nat => a.2 < b.2) ?_ ?_
    · intro a b hab x hx y hy
      have key : ∀ (p : Str × Nat) (t : Nat × List Str),
          (match words p.1 with | some (w :: ws) => some (p.2, w :: ws) | _ => none) = some t →
          t.1 = p.2 := by
        intro p t ht
        split at ht
        · cases ht; rfl
        · cases ht
      rw [key a x hx, key b y hy]
      exact hab
    · unfold toDecode
      rw [← List.pairwise_map (f := fun p : Str × Nat => p.2) (R := (· < ·))]
      have : (lines.filter (fun x : Str => decide (x.head? ≠ some 35))).zipIdx.map (fun p => p.2) =
          List.range (lines.filter (fun x : Str => decide (x.head? ≠ some 35))).length := by
        rw [List.range_eq_range']
        exact List.zipIdx_map_snd 0 _
      rw [this]
      exact List.pairwise_lt_range
  have hmem : ∀ t ∈ texts lines, t.2 ≠ [] ∧ ∀ w ∈ t.2, (C t.1).cands w ≠ [] ∧ w ∈ (C t.1).isyms := by
    intro t ht
    obtain ⟨p, hp, e⟩ := List.mem_filterMap.1 ht
    obtain ⟨ws, h1, _, h3⟩ := hl p hp
    rw [h1] at e
    cases ws with
    | nil => cases e
    | cons w ws =>
      cases e
      exact ⟨by simp, fun x hx => ⟨(h3 x hx).1, (h3 x hx).2.1⟩⟩
  refine (C83_read _ ?_ _).2 ⟨(texts lines).map (sourceOf rd C), ?_, ?_, rfl, ?_⟩
  · intro l hm
    obtain ⟨s, hs, hm⟩ := List.mem_flatMap.1 hm
    obtain ⟨t, ht, rfl⟩ := List.mem_map.1 hs
    have : ∀ (i : Int) (k : Nat) (ps : List (List (Str × (Str × κ)))), ∀ l ∈ linesFrom i k ps, l.idx = i := by
      intro i k ps
      induction ps generalizing k with
      | nil => simp [linesFrom]
      | cons q ps ih =>
        intro l hl
        rw [linesFrom] at hl
        rcases List.mem_append.1 hl with hl | hl
        · obtain ⟨x, _, rfl⟩ := List.mem_map.1 hl; rfl
        · exact ih _ l hl
    rw [this _ _ _ l hm]
    simp [sourceOf]
  · intro s hs
    obtain ⟨t, ht, rfl⟩ := List.mem_map.1 hs
    obtain ⟨h1, h2⟩ := hmem t ht
    refine ⟨by simp [sourceOf], ?_, ?_⟩
    · simpa [sourceOf, sourcePositions, labelled] using h1
    · intro ls hls
      simp only [sourceOf, sourcePositions, labelled, List.map_map, List.mem_map, Function.comp] at hls
      obtain ⟨w, hw, rfl⟩ := hls
      simpa using (h2 w hw).1
  · unfold Distinct
    rw [List.isChain_map]
    refine List.Pairwise.isChain (hpw.imp ?_)
    intro a b hab
    simp only [sourceOf]
    omega
  · rw [List.map_map, List.map_map, List.map_map]
    refine Prod.ext ?_ (Prod.ext ?_ rfl)
    · refine List.map_congr_left fun t _ => ?_
      simp [Source.cands, sourceOf, sourcePositions, labelled, readCands, Function.comp_def]
    · refine List.map_congr_left fun t ht => ?_
      simp only [Function.comp, Source.inputs, sourceOf, sourcePositions, labelled, List.map_map]
      congr 1
      conv => lhs; rw [← List.map_id t.2]
      refine List.map_congr_left fun w hw => ?_
      obtain ⟨h1, h2⟩ := (hmem t ht).2 w hw
      cases hc : (C t.1).cands w with
      | nil => exact absurd hc h1
      | cons c cs => simp [inputOf, hc, symName_find h2]


/-- Weights that are natural numbers, written in decimal. -/
def natFmt : Nat → Str := decimal

/-- Reading them. -/
def natParse (s : Str) : Option Nat := (stoi s).map Int.toNat

/-- A context with one candidate or two for the words `a` and `b`. -/
def twoWords : Context Nat where
  isyms := [epsilonName, [97], [98]]
  osyms := [epsilonName, [120], [121, 32, 122]]
  cands w := if w = [97] then [(1, 5), (2, 70)] else if w = [98] then [(1, 0)] else []

/-- Lines `a  b`, a comment, a line of a space, `b`: the text of the third line is not listed, and the
fourth has index 2. -/
example : runDecoder natFmt (fun _ => twoWords) [[97, 32, 32, 98], [35], [32], [98]] =
      some (.ok (unlines [[48, 9, 48, 9, 97, 9, 120, 9, 53], [48, 9, 48, 9, 97, 9, 121, 32, 122, 9, 55, 48],
        [48, 9, 49, 9, 98, 9, 120, 9, 48], [50, 9, 48, 9, 98, 9, 120, 9, 48]])) ∧
    initFile natParse (unlines [[48, 9, 48, 9, 97, 9, 120, 9, 53], [48, 9, 48, 9, 97, 9, 121, 32, 122, 9, 55, 48],
        [48, 9, 49, 9, 98, 9, 120, 9, 48], [50, 9, 48, 9, 98, 9, 120, 9, 48]]) =
      .ok ([[[([120], 5), ([121, 32, 122], 70)], [([120], 0)]], [[([120], 0)]]],
        [[97, 32, 98], [98]], [0, 2]) := by
  constructor <;> rfl

/-- The same as an instance of the theorem: its hypotheses can be met. -/
example : ∃ file, runDecoder (fun n => decimal (n % 1000)) (fun _ => twoWords)
      [[97, 32, 32, 98], [35], [32], [98]] = some (.ok file) ∧
    ∃ r, initFile (fun s => some (digitsValue s)) file = .ok r ∧ r.2.2 = [0, 2] := by
  obtain ⟨file, h1, h2⟩ := C118_roundtrip (fun n => decimal (n % 1000)) (fun s => some (digitsValue s))
    (· % 1000) (fun v => decimal_field _) (fun v => by simp [digitsValue_decimal]) (fun _ => twoWords)
    [[97, 32, 32, 98], [35], [32], [98]] (by decide) (by
      have e : toDecode [[97, 32, 32, 98], [35], [32], [98]] = [([97, 32, 32, 98], 0), ([32], 1), ([98], 2)] := by
        rfl
      rw [e]
      intro p hp
      simp only [List.mem_cons, List.not_mem_nil, or_false] at hp
      have good : ∀ w ∈ [[97], [98]], twoWords.cands w ≠ [] ∧ w ∈ twoWords.isyms ∧
          twoWords.isyms.head? ≠ some w ∧ ∀ c ∈ twoWords.cands w, Field (symName twoWords.osyms c.1) ∧
          w.length + (symName twoWords.osyms c.1).length + (decimal (c.2 % 1000)).length ≤ 51000 := by
        unfold LatticeText.Field
        decide
      rcases hp with rfl | rfl | rfl
      · exact ⟨[[97], [98]], by rfl, by decide, good⟩
      · exact ⟨[], by rfl, by decide, by simp⟩
      · exact ⟨[[98]], by rfl, by decide, fun w hw => good w (by simp at hw; simp [hw])⟩)
  exact ⟨file, h1, _, h2, by rfl⟩

/-- C118 fails for an empty candidate: its line has four fields for the extractor, which stops. -/
theorem C118_empty_violated (fmt : κ → Str) (parse : Str → Option κ) (isyms osyms : SymTab)
    (i s : Nat) (a : Arc κ) (hf : Field (fmt a.weight)) (hw : Field (symName isyms a.ilabel))
    (he : symName osyms a.olabel = []) :
    parseLine parse (arcLine fmt isyms osyms (decimal i) s a) = .error .check := by
  unfold parseLine
  rw [arcLine_eq _ _ _ _ (decimal_ne_nil i), fields_cons _ _ (decimal_field i).2.1, he,
    fields_four _ _ _ _ (decimal_field s) hw (by simp) hf]
  simp [decimal_ne_nil]

/-- A whole run with an empty candidate. -/
theorem C118_empty_run_violated :
    ∃ (C : Context Nat) (file : Str), runDecoder natFmt (fun _ => C) [[97]] = some (.ok file) ∧
      initFile natParse file = .error .check :=
  ⟨⟨[epsilonName, [97]], [epsilonName, []], fun _ => [(1, 0)]⟩, [48, 9, 48, 9, 97, 9, 9, 48, 10], rfl, rfl⟩

/-- A candidate with a tab is cut into two fields, and the extractor stops. -/
theorem C118_tab_violated :
    ∃ (C : Context Nat) (file : Str), runDecoder natFmt (fun _ => C) [[97]] = some (.ok file) ∧
      initFile natParse file = .error .check :=
  ⟨⟨[epsilonName, [97]], [epsilonName, [98, 9, 99]], fun _ => [(1, 0)]⟩,
    [48, 9, 48, 9, 97, 9, 98, 9, 99, 9, 48, 10], rfl, rfl⟩

/-- A candidate that begins with a tab loses it without a failure. -/
theorem C118_tab_lost_violated :
    ∃ (C : Context Nat) (file : Str), symName C.osyms 1 = [9, 98] ∧
      runDecoder natFmt (fun _ => C) [[97]] = some (.ok file) ∧
      initFile natParse file = .ok ([[[([98], 0)]]], [[97]], [0]) :=
  ⟨⟨[epsilonName, [97]], [epsilonName, [9, 98]], fun _ => [(1, 0)]⟩,
    [48, 9, 48, 9, 97, 9, 9, 98, 9, 48, 10], rfl, rfl, rfl⟩

/-- Without a prefix the printed lines cannot be read. -/
theorem C118_prefix (fmt : κ → Str) (parse : Str → Option κ) (isyms osyms : SymTab)
    (s : Nat) (a : Arc κ) (hf : Field (fmt a.weight)) (hw : Field (symName isyms a.ilabel))
    (hy : Field (symName osyms a.olabel)) :
    parseLine parse (arcLine fmt isyms osyms [] s a) = .error .check := by
  unfold parseLine
  have e : arcLine fmt isyms osyms [] s a = decimal s ++ 9 :: (symName isyms a.ilabel ++ 9 ::
      (symName osyms a.olabel ++ 9 :: fmt a.weight)) := by
    simp [arcLine, LatticeText.columns, strJoin]
  rw [e, fields_four _ _ _ _ (decimal_field s) hw hy.2.1 hf]
  simp [hy.1]

example : parseLine natParse (arcLine natFmt [epsilonName, [97]] [epsilonName, [98]] [] 0 ⟨1, 1, 0, 1⟩) =
    .error .check := C118_prefix _ _ _ _ _ _ (decimal_field _) (by unfold LatticeText.Field; decide) (by unfold LatticeText.Field; decide)

/-- A word that is the epsilon symbol stops the decoder: the label found for it is 0. -/
theorem C118_epsilon_violated (fmt : κ → Str) (C : Context κ) (w line : Str) (ws : List Str) (i : Nat)
    (h : words line = some (w :: ws)) (he : C.isyms.head? = some w) :
    transliterate fmt C line i = some (.error .check) := by
  have hf : C.isyms.find w = some 0 := by
    unfold SymTab.find
    cases hi : C.isyms with
    | nil => rw [hi] at he; cases he
    | cons x xs => rw [hi] at he; cases he; simp [List.idxOf?, List.findIdx?_cons]
  unfold LatticeText.transliterate buildFst
  rw [h]
  by_cases hc : C.cands w = []
  · simp [LatticeText.addWords, hc]
  · simp [LatticeText.addWords, hc, hf]

example : transliterate natFmt twoWords epsilonName 0 = some (.error .check) :=
  C118_epsilon_violated _ _ epsilonName _ [] _ rfl rfl

end Nisaba.Props
