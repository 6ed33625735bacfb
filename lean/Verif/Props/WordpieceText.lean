import Verif.Lemmas.WordpieceText
/-!
# Vocabulary file and text output of the word-piece segmenter (C129)

Text and lines are given by their characters; `encodeText` is UTF-8.
-/
namespace Nisaba.Props
open Nisaba.Wordpiece Nisaba.Utf8

/-- The first word of a line: what stands between the leading white space and the next white
space, if anything. -/
def firstWord (l : List Nat) : Option (List Nat) :=
  match (l.dropWhile whitespaceDelimiter).takeWhile (fun c => !whitespaceDelimiter c) with
  | [] => none
  | c :: w => some (c :: w)

/-- The words of a text: its non-empty stretches between white space. -/
def textWords (cs : List Nat) : List (List Nat) :=
  (cs.splitOnP whitespaceDelimiter).filter fun w => !w.isEmpty

theorem textWords_head (l : List Nat) : (textWords l).head? = firstWord l := by
  unfold textWords
  induction l with
  | nil => rfl
  | cons c l ih =>
    rw [List.splitOnP_cons_eq_if_modifyHead]
    by_cases h : whitespaceDelimiter c = true
    · rw [if_pos h, List.filter_cons_of_neg (by simp), ih]
      simp [firstWord, List.dropWhile_cons, h]
    · rw [if_neg h]
      have h' : whitespaceDelimiter c = false := by simpa using h
      have e : ∀ t : List Nat, ∃ r, t.splitOnP whitespaceDelimiter =
          t.takeWhile (fun c => !whitespaceDelimiter c) :: r := by
        intro t
        induction t with
        | nil => exact ⟨[], rfl⟩
        | cons x t iht =>
          rw [List.splitOnP_cons_eq_if_modifyHead]
          obtain ⟨r, hr⟩ := iht
          by_cases hx : whitespaceDelimiter x = true
          · rw [if_pos hx]
            exact ⟨_, by rw [List.takeWhile_cons, hx]; rfl⟩
          · rw [if_neg hx, hr]
            have hx' : whitespaceDelimiter x = false := by simpa using hx
            exact ⟨r, by rw [List.takeWhile_cons, hx']; rfl⟩
      obtain ⟨r, hr⟩ := e l
      rw [hr]
      simp [firstWord, List.dropWhile_cons, List.takeWhile_cons, h']

theorem textWords_chars {cs w : List Nat} (hw : w ∈ textWords cs) :
    (∀ c ∈ w, c ∈ cs ∧ whitespaceDelimiter c = false) ∧ w ≠ [] := by
  obtain ⟨h1, h2⟩ := List.mem_filter.1 hw
  refine ⟨?_, by simpa using h2⟩
  clear h2 hw
  induction cs generalizing w with
  | nil => rw [List.splitOnP_nil] at h1; simp at h1; subst h1; simp
  | cons x cs ih =>
    rw [List.splitOnP_cons_eq_if_modifyHead] at h1
    by_cases hx : whitespaceDelimiter x = true
    · rw [if_pos hx] at h1
      rcases List.mem_cons.1 h1 with rfl | h1
      · simp
      · intro c hc
        exact ⟨List.mem_cons_of_mem _ (ih h1 c hc).1, (ih h1 c hc).2⟩
    · rw [if_neg hx] at h1
      cases hs : cs.splitOnP whitespaceDelimiter with
      | nil => exact absurd hs (List.splitOnP_ne_nil _ _)
      | cons p ps =>
        rw [hs] at h1
        simp only [List.modifyHead_cons, List.mem_cons] at h1
        rcases h1 with rfl | h1
        · intro c hc
          rcases List.mem_cons.1 hc with rfl | hc
          · exact ⟨by simp, by simpa using hx⟩
          · have := ih (w := p) (by rw [hs]; simp) c hc
            exact ⟨List.mem_cons_of_mem _ this.1, this.2⟩
        · intro c hc
          have := ih (w := w) (by rw [hs]; simp [h1]) c hc
          exact ⟨List.mem_cons_of_mem _ this.1, this.2⟩

/-- C129, the vocabulary file: a segmenter initialised from a file is the segmenter of the first
words of the lines of the file, in their order.  What follows the first word of a line is not used,
white space before it neither, and a line without a word gives no piece and takes no rank.  The
last line may lack its line feed. -/
theorem C129_file (pre : List Nat) (lines : List (List Nat)) (last : List Nat)
    (hs : ∀ l ∈ last :: lines, ∀ c ∈ l, Scalar c ∧ c ≠ 10) :
    initFromFile pre (unlines (lines.map encodeText) ++ encodeText last) =
      some (mkSegmenter pre (((lines ++ [last]).filterMap firstWord).map encodeText)) := by
  have h10 : ∀ l ∈ last :: lines, 10 ∉ encodeText l := fun l hl h =>
    (hs l hl 10 (mem_encodeText_ascii (by decide) h)).2 rfl
  unfold initFromFile
  rw [getLines_unlines _ _ (by
    intro l hl
    obtain ⟨x, hx, rfl⟩ := List.mem_map.1 hl
    exact h10 x (by simp [hx])) (h10 last (by simp))]
  have key : ∀ ls : List (List Nat), (∀ l ∈ ls, ∀ c ∈ l, Scalar c) →
      readPieces [] (ls.map encodeText) = some ((ls.filterMap firstWord).map encodeText) := by
    intro ls hls
    have dec : ∀ l ∈ ls, decodeAll (encodeText l) = some l := fun l hl =>
      decodeAll_encode l fun c hc => (scalar_iff c).2 (hls l hl c hc)
    rw [readPieces_eq (fun b => ((decodeAll b).bind firstWord).map encodeText)]
    · rw [List.filterMap_map, List.map_filterMap, List.nil_append]
      congr 1
      clear hls
      induction ls with
      | nil => rfl
      | cons l ls ih =>
        rw [List.filterMap_cons, List.filterMap_cons, ih fun x hx => dec x (by simp [hx])]
        simp [dec l (by simp)]
    · intro b hb
      obtain ⟨l, hl, rfl⟩ := List.mem_map.1 hb
      refine ⟨_, strSplit_encode _ l (hls l hl), ?_⟩
      rw [filter_encode, List.head?_map, dec l hl]
      simp only [Option.bind_some]
      rw [← textWords_head]
      rfl
  by_cases hlast : last = []
  · subst hlast
    have := key lines fun l hl c hc => (hs l (by simp [hl]) c hc).1
    rw [if_pos (by rfl), List.append_nil, this]
    have e : ([[]] : List (List Nat)).filterMap firstWord = [] := by decide
    rw [List.filterMap_append, e, List.append_nil]
    rfl
  · rw [if_neg (fun h => hlast (encodeText_eq_nil h))]
    have := key (lines ++ [last]) fun l hl c hc => (hs l (by
      rcases List.mem_append.1 hl with h | h
      · simp [h]
      · simp at h; simp [h]) c hc).1
    rw [List.map_append] at this
    rw [show [encodeText last] = [last].map encodeText from rfl, this]
    rfl

/-- Three lines, `ab 7`, an empty one and ` c` with a carriage return: the pieces are `ab` and
`c`. -/
example : initFromFile [] [97, 98, 32, 55, 10, 10, 32, 99, 13] =
    some (mkSegmenter [] [[97, 98], [99]]) :=
  C129_file [] [[97, 98, 32, 55], []] [32, 99, 13] (by
    simp only [List.mem_cons, List.not_mem_nil, or_false, forall_eq_or_imp, forall_eq, Scalar,
      false_imp_iff, implies_true]
    decide)

/-- C129, the vocabulary file, error branch: a line that is not valid UTF-8 ends in an exception. -/
theorem C129_file_invalid (pre : List Nat) (lines : List (List Nat)) (last l : List Nat)
    (h10 : ∀ l ∈ last :: lines, 10 ∉ l) (hl : l ∈ last :: lines) (h : isValid l = false) :
    initFromFile pre (unlines lines ++ last) = none := by
  unfold initFromFile
  rw [getLines_unlines _ _ (fun l hl => h10 l (by simp [hl])) (h10 last (by simp))]
  rw [readPieces_invalid _ _ l ?_ h]
  · rfl
  · rcases List.mem_cons.1 hl with rfl | hl
    · have : l ≠ [] := by rintro rfl; revert h; decide
      simp [this]
    · simp [hl]

/-- A lone continuation byte. -/
example : initFromFile [] [97, 10, 0x80, 10, 98] = none :=
  C129_file_invalid [] [[97], [0x80]] [98] [0x80] (by decide) (by decide) (by decide)

/-- C129, the text output: with a prefix without a space, cutting the output at the spaces gives
the pieces, none of which is empty, and deleting the spaces gives the words of the text, each after
the prefix.  A text without words gives the empty output. -/
theorem C129_text (vocab : List (List Nat)) (pre cs : List Nat) (hpre : isValid pre = true)
    (h32 : 32 ∉ pre) (hcs : ∀ c ∈ cs, Scalar c) :
    ∃ pieces out, getWordpieces (mkSegmenter pre vocab) (encodeText cs) = some (some (.ok pieces)) ∧
      tokenizeInput (mkSegmenter pre vocab) (encodeText cs) = some (some (.ok out)) ∧
      (∀ p ∈ pieces, p ≠ []) ∧
      (out = [] ↔ textWords cs = []) ∧
      (out ≠ [] → out.splitOnP (· == 32) = pieces) ∧
      out.filter (fun b => decide (b ≠ 32)) =
        (textWords cs).flatMap (fun w => effectivePrefix pre ++ encodeText w) := by
  obtain ⟨words, segs, h1, h2, h3, h4⟩ := C33_text vocab pre (encodeText cs) hpre
    ((isValid_iff _).2 ⟨cs, fun c hc => (scalar_iff c).2 (hcs c hc), rfl⟩)
  rw [strSplit_encode _ _ hcs] at h1
  have hw : words.filter (· ≠ []) = (textWords cs).map encodeText := by
    cases h1
    rw [textWords, ← filter_encode]
    apply List.filter_congr
    intro x _
    cases x <;> rfl
  rw [hw] at h3 h4
  have h32' : 32 ∉ effectivePrefix pre := by
    unfold effectivePrefix
    split
    · decide
    · exact h32
  have hpne : effectivePrefix pre ≠ [] := by
    unfold effectivePrefix
    split
    · decide
    · assumption
  -- the pieces of all words
  have key : ∀ (ws : List (List Nat)) (segs : List (List (List Nat))),
      (∀ w ∈ ws, 32 ∉ w) → segs.length = (ws.map encodeText).length →
      (∀ x ∈ (ws.map encodeText).zip segs, ∃ cs, (∀ c ∈ cs, Scalar c) ∧
        encodeText cs = effectivePrefix pre ++ x.1 ∧ WordSpec vocab cs x.2) →
      (∀ p ∈ segs.flatten, p ≠ []) ∧ (∀ p ∈ segs.flatten, 32 ∉ p) ∧
        segs.flatten.flatten = ws.flatMap (fun w => effectivePrefix pre ++ encodeText w) := by
    intro ws
    induction ws with
    | nil =>
      intro segs _ hl _
      have : segs = [] := List.length_eq_zero_iff.1 (by simpa using hl)
      subst this
      simp
    | cons w ws ih =>
      intro segs hws hl hz
      cases segs with
      | nil => simp at hl
      | cons s segs =>
        obtain ⟨i1, i2, i3⟩ := ih segs (fun x hx => hws x (by simp [hx])) (by simpa using hl)
          (fun x hx => hz x (by simp [hx]))
        obtain ⟨ds, hds, he, hsp⟩ := hz (encodeText w, s) (by simp)
        have e1 : s.flatten = effectivePrefix pre ++ encodeText w := by rw [hsp.lossless, he]
        have e2 : ∀ p ∈ s, 32 ∉ p := by
          intro p hp h
          have : 32 ∈ s.flatten := List.mem_flatten.2 ⟨p, hp, h⟩
          rw [e1] at this
          rcases List.mem_append.1 this with h | h
          · exact h32' h
          · exact hws w (by simp) (mem_encodeText_ascii (by decide) h)
        have e3 : ∀ p ∈ s, p ≠ [] := bestMerges_ne hsp.greedy (by
          intro p hp
          obtain ⟨c, _, rfl⟩ := List.mem_map.1 hp
          exact encodeRaw_ne_nil c)
        refine ⟨?_, ?_, ?_⟩
        · intro p hp
          rw [List.flatten_cons, List.mem_append] at hp
          exact hp.elim (e3 p) (i1 p)
        · intro p hp
          rw [List.flatten_cons, List.mem_append] at hp
          exact hp.elim (e2 p) (i2 p)
        · rw [List.flatten_cons, List.flatten_append, i3, e1, List.flatMap_cons]
  obtain ⟨k1, k2, k3⟩ := key (textWords cs) segs (by
    intro w hw h
    have := ((textWords_chars hw).1 32 h).2
    revert this
    decide) h3 h4
  have hout := joinSpace_filter _ k2
  have hnil : joinSpace segs.flatten = [] ↔ textWords cs = [] := by
    constructor
    · intro h
      rw [h, k3] at hout
      cases ht : textWords cs with
      | nil => rfl
      | cons w ws =>
        rw [ht] at hout
        simp only [List.filter_nil, List.flatMap_cons] at hout
        have := List.append_eq_nil_iff.1 (List.append_eq_nil_iff.1 hout.symm).1
        exact absurd this.1 hpne
    · intro h
      rw [h] at h3
      have : segs = [] := List.length_eq_zero_iff.1 (by simpa using h3)
      rw [this]
      rfl
  refine ⟨_, joinSpace segs.flatten, h2, ?_, k1, hnil, ?_, ?_⟩
  · simp [tokenizeInput, h2]
  · intro hne
    apply joinSpace_split _ k2
    intro h
    rw [h] at hne
    exact hne rfl
  · rw [hout, k3]

/-- With the pieces `▁a` and `bc`, the text `abc  b` is written as `▁a bc ▁ b`. -/
example : tokenizeInput (mkSegmenter [] [[0xE2, 0x96, 0x81, 97], [98, 99]])
    (encodeText [97, 98, 99, 32, 32, 98]) =
    some (some (.ok [0xE2, 0x96, 0x81, 97, 32, 98, 99, 32, 0xE2, 0x96, 0x81, 32, 98])) := by rfl

/-- C129: the text output tells the words of the text, whatever the vocabulary, if the words do not
contain the first character of the prefix. -/
theorem C129_words (v₁ v₂ : List (List Nat)) (q : Nat) (qs cs ds pre : List Nat)
    (he : effectivePrefix pre = encodeText (q :: qs)) (hq : ∀ c ∈ q :: qs, Scalar c ∧ c ≠ 32)
    (hcs : ∀ c ∈ cs, Scalar c ∧ c ≠ q) (hds : ∀ c ∈ ds, Scalar c ∧ c ≠ q)
    (h : tokenizeInput (mkSegmenter pre v₁) (encodeText cs) =
      tokenizeInput (mkSegmenter pre v₂) (encodeText ds)) : textWords cs = textWords ds := by
  have hv : isValid pre = true := by
    by_cases hp : pre = []
    · subst hp; decide
    · rw [effectivePrefix, if_neg hp] at he
      exact (isValid_iff _).2 ⟨q :: qs, fun c hc => (scalar_iff c).2 (hq c hc).1, he⟩
  have h32 : 32 ∉ pre := by
    by_cases hp : pre = []
    · subst hp; simp
    · rw [effectivePrefix, if_neg hp] at he
      rw [he]
      intro h
      exact (hq 32 (mem_encodeText_ascii (by decide) h)).2 rfl
  obtain ⟨p1, o1, _, t1, _, _, _, f1⟩ := C129_text v₁ pre cs hv h32 fun c hc => (hcs c hc).1
  obtain ⟨p2, o2, _, t2, _, _, _, f2⟩ := C129_text v₂ pre ds hv h32 fun c hc => (hds c hc).1
  rw [t1, t2] at h
  have ho : o1 = o2 := by simpa using h
  rw [ho, f2, he] at f1
  have enc : ∀ ws : List (List Nat), ws.flatMap (fun w => encodeText (q :: qs) ++ encodeText w) =
      encodeText (ws.flatMap fun w => q :: qs ++ w) := by
    intro ws
    induction ws with
    | nil => rfl
    | cons w ws ih => rw [List.flatMap_cons, ih, List.flatMap_cons, encodeText_append, encodeText_append]
  rw [enc, enc] at f1
  have sc : ∀ xs : List Nat, (∀ c ∈ xs, Scalar c ∧ c ≠ q) →
      ∀ c ∈ (textWords xs).flatMap fun w => q :: qs ++ w, isScalar c = true := by
    intro xs hxs c hc
    obtain ⟨w, hw, hc⟩ := List.mem_flatMap.1 hc
    rcases List.mem_append.1 hc with hc | hc
    · exact (scalar_iff c).2 (hq c hc).1
    · exact (scalar_iff c).2 (hxs c ((textWords_chars hw).1 c hc).1).1
  have := encode_injective (sc ds hds) (sc cs hcs) f1
  exact (prefixed_injective q qs _ _
    (fun w hw hm => (hcs q ((textWords_chars hw).1 q hm).1).2 rfl)
    (fun w hw hm => (hds q ((textWords_chars hw).1 q hm).1).2 rfl) this.symm)

/-- The hypotheses hold for the default prefix and the texts `ab c` and ` ab  c`. -/
example : effectivePrefix [] = encodeText [0x2581] ∧ (∀ c ∈ [0x2581], Scalar c ∧ c ≠ 32) ∧
    (∀ c ∈ [97, 98, 32, 99], Scalar c ∧ c ≠ 0x2581) ∧
    tokenizeInput (mkSegmenter [] [[97, 98]]) (encodeText [97, 98, 32, 99]) =
      tokenizeInput (mkSegmenter [] [[97, 98]]) (encodeText [32, 97, 98, 32, 32, 99]) ∧
    textWords [97, 98, 32, 99] = [[97, 98], [99]] := by
  refine ⟨by decide, ?_, ?_, by rfl, by decide⟩ <;>
    · simp only [List.mem_cons, List.not_mem_nil, or_false, forall_eq_or_imp, forall_eq, Scalar]
      decide

/-- C129: the condition on the words is needed, since nothing escapes the prefix: `a▁b` and `a b`
have the same output. -/
theorem C129_prefix_in_word :
    ∃ cs ds : List Nat, textWords cs ≠ textWords ds ∧ ∀ vocab : List (List Nat), vocab = [] →
      tokenizeInput (mkSegmenter [] vocab) (encodeText cs) =
        tokenizeInput (mkSegmenter [] vocab) (encodeText ds) := by
  refine ⟨[97, 0x2581, 98], [97, 32, 98], by decide, ?_⟩
  rintro _ rfl
  rfl

/-- C129, error branch: text that is not valid UTF-8 ends in an exception. -/
theorem C129_invalid (seg : Segmenter) (text : List Nat) (h : isValid text = false) :
    tokenizeInput seg text = none := by
  rw [tokenizeInput, (C33_invalid seg [] text).2 h]

example : isValid [97, 0xC0] = false := by decide

end Nisaba.Props
