import Verif.Lemmas.Wordpiece
import Verif.Props.Delimiters
/-!
# Word-piece segmentation (C33)
-/
namespace Nisaba.Props
open Nisaba.Wordpiece Nisaba.Utf8

/-- Rank of a string in a vocabulary list: the position of its first occurrence. -/
def RankIn (vocab : List (List Nat)) (s : List Nat) (r : Nat) : Prop :=
  vocab[r]? = some s ∧ ∀ j, j < r → vocab[j]? ≠ some s

/-- Specification: merge the adjacent pair whose concatenation has the least rank in the
vocabulary, the leftmost such pair if several have it. -/
def BestMerge (vocab : List (List Nat)) (ps qs : List (List Nat)) : Prop :=
  ∃ a p q c r, ps = a ++ p :: q :: c ∧ qs = a ++ (p ++ q) :: c ∧ RankIn vocab (p ++ q) r ∧
    ∀ a' p' q' c' r', ps = a' ++ p' :: q' :: c' → RankIn vocab (p' ++ q') r' →
      r ≤ r' ∧ (a'.length < a.length → r < r')

/-- Zero or more best merges. -/
inductive BestMerges (vocab : List (List Nat)) : List (List Nat) → List (List Nat) → Prop
  | refl (ps) : BestMerges vocab ps ps
  | step {ps qs rs} : BestMerge vocab ps qs → BestMerges vocab qs rs → BestMerges vocab ps rs

/-- No two adjacent pieces form a vocabulary entry. -/
def NoMergeLeft (vocab : List (List Nat)) (ps : List (List Nat)) : Prop :=
  ∀ a p q c, ps = a ++ p :: q :: c → p ++ q ∉ vocab

/-- The prefix in effect: an empty one is replaced by `▁`. -/
def effectivePrefix (pre : List Nat) : List Nat := if pre = [] then kWordInitPrefix else pre

theorem rank_iff (vocab : List (List Nat)) (s : List Nat) (r : Nat) :
    (initRanks [] 0 vocab).find s = some r ↔ RankIn vocab s r := by
  rw [initRanks_find]
  simp only [Ranks.find, reduceCtorEq, true_and, false_or, Nat.zero_add, RankIn]
  constructor
  · rintro ⟨i, rfl, h⟩; exact h
  · intro h; exact ⟨r, rfl, h⟩

theorem rank_none (vocab : List (List Nat)) (s : List Nat) :
    (initRanks [] 0 vocab).find s = none → s ∉ vocab := by
  intro h hs
  obtain ⟨i, hi⟩ := List.mem_iff_getElem?.1 hs
  -- least such index
  have : ∀ n i : Nat, i ≤ n → vocab[i]? = some s → ∃ r, RankIn vocab s r := by
    intro n
    induction n with
    | zero =>
      intro i hi h
      have : i = 0 := by omega
      subst this
      exact ⟨0, h, by intro j hj; omega⟩
    | succ n ih =>
      intro i hi h
      by_cases hex : ∃ j, j < i ∧ vocab[j]? = some s
      · obtain ⟨j, hj, hs⟩ := hex
        exact ih j (by omega) hs
      · exact ⟨i, h, fun j hj hs => hex ⟨j, hj, hs⟩⟩
  obtain ⟨r, hr⟩ := this i i (Nat.le_refl _) hi
  rw [(rank_iff vocab s r).2 hr] at h; cases h

theorem map_split {ps : List Piece} {a' : List (List Nat)} {p' q' : List Nat}
    {c' : List (List Nat)} (h : ps.map List.flatten = a' ++ p' :: q' :: c') :
    ∃ a p q c, ps = a ++ p :: q :: c ∧ a' = a.map List.flatten ∧ p' = p.flatten ∧
      q' = q.flatten ∧ c' = c.map List.flatten := by
  obtain ⟨a, t, rfl, h1, h2⟩ := List.map_eq_append_iff.1 h
  obtain ⟨p, t, rfl, h3, h4⟩ := List.map_eq_cons_iff.1 h2
  obtain ⟨q, c, rfl, h5, h6⟩ := List.map_eq_cons_iff.1 h4
  exact ⟨a, p, q, c, rfl, h1.symm, h3.symm, h5.symm, h6.symm⟩

theorem steps_map (vocab : List (List Nat)) {ps qs : List Piece}
    (h : MergeSteps (initRanks [] 0 vocab) ps qs) :
    BestMerges vocab (ps.map List.flatten) (qs.map List.flatten) := by
  induction h with
  | refl ps => exact .refl _
  | step hs _ ih =>
    refine .step ?_ ih
    obtain ⟨a, p, q, c, r, rfl, rfl, hr, hmin⟩ := hs
    refine ⟨a.map List.flatten, p.flatten, q.flatten, c.map List.flatten, r, by simp, by simp,
      ?_, ?_⟩
    · rw [← rank_iff, ← hr, List.flatten_append]
    · intro a' p' q' c' r' e hr'
      obtain ⟨a1, p1, q1, c1, e1, rfl, rfl, rfl, rfl⟩ := map_split e
      have := hmin a1 p1 q1 c1 r' e1 (by rw [List.flatten_append]; exact (rank_iff _ _ _).2 hr')
      simpa using this

/-- The guarantees for the segmentation of one word spelled by characters `cs` (prefix
included). -/
structure WordSpec (vocab : List (List Nat)) (cs : List Nat) (pieces : List (List Nat)) : Prop where
  /-- The pieces spell the word. -/
  lossless : pieces.flatten = encodeText cs
  /-- A piece is a vocabulary entry or a single character. -/
  known : ∀ p ∈ pieces, p ∈ vocab ∨ ∃ c ∈ cs, p = encodeRaw c
  /-- Nothing is left to merge. -/
  complete : NoMergeLeft vocab pieces
  /-- The pieces arise by repeatedly merging the best pair. -/
  greedy : BestMerges vocab (cs.map encodeRaw) pieces

theorem word_spec (vocab : List (List Nat)) (pre : List Nat) (cs : List Nat)
    (hcs : ∀ c ∈ cs, Scalar c) (w : List Nat) (hw : effectivePrefix pre ++ w = encodeText cs) :
    ∃ pieces, tokenize (extractCands (mkSegmenter pre vocab).ranks
        (strSplitByChar ((mkSegmenter pre vocab).pre ++ w))) = some (.ok pieces) ∧
      WordSpec vocab cs pieces := by
  have hp : (mkSegmenter pre vocab).pre = effectivePrefix pre := by
    cases pre <;> rfl
  have hs := ((C31_split (encodeText cs)).1 cs hcs (by rw [encodeText, List.flatMap_def])).1
  rw [hp, hw, hs]
  obtain ⟨qs, e1, e2, e3, _, e4, e5⟩ := tokenize_spec (initRanks [] 0 vocab) (cs.map encodeRaw)
    (by intro c hc; obtain ⟨x, _, rfl⟩ := List.mem_map.1 hc; exact encodeRaw_ne_nil x)
  refine ⟨_, e1, ?_, ?_, ?_, ?_⟩
  · rw [map_flatten_flatten, e3, encodeText, List.flatMap_def]
  · intro p hp
    obtain ⟨q, hq, rfl⟩ := List.mem_map.1 hp
    rcases e4 q hq with h | h
    · right
      obtain ⟨x, rfl⟩ := List.length_eq_one_iff.1 h
      have : x ∈ cs.map encodeRaw := by
        rw [← e3]; exact List.mem_flatten.2 ⟨_, hq, by simp⟩
      obtain ⟨c, hc, rfl⟩ := List.mem_map.1 this
      exact ⟨c, hc, by simp⟩
    · left
      obtain ⟨r, hr⟩ := Option.isSome_iff_exists.1 h
      exact List.mem_of_getElem? ((rank_iff vocab _ r).1 hr).1
  · intro a p q c e
    obtain ⟨a1, p1, q1, c1, e1', rfl, rfl, rfl, rfl⟩ := map_split e
    have := e5 a1 p1 q1 c1 e1'
    rw [List.flatten_append] at this
    exact rank_none vocab _ this
  · have := steps_map vocab e2
    simpa [List.map_map, Function.comp_def] using this

/-- C33 for one word: segmentation of a word of valid UTF-8 terminates without an internal error
or an out-of-range access, and satisfies `WordSpec`. -/
theorem C33_word (vocab : List (List Nat)) (pre w : List Nat) (hpre : isValid pre = true)
    (hw : isValid w = true) :
    ∃ cs pieces, (∀ c ∈ cs, Scalar c) ∧ encodeText cs = effectivePrefix pre ++ w ∧
      noWhitespaceWordpieces (mkSegmenter pre vocab) [w] = some (.ok pieces) ∧
      WordSpec vocab cs pieces := by
  have hp : isValid (effectivePrefix pre) = true := by
    unfold effectivePrefix; split
    · decide
    · exact hpre
  obtain ⟨cs, hcs, e⟩ := (isValid_iff _).1 (isValid_append hp hw)
  have hcs' : ∀ c ∈ cs, Scalar c := fun c hc => (scalar_iff c).1 (hcs c hc)
  obtain ⟨pieces, h1, h2⟩ := word_spec vocab pre cs hcs' w e
  refine ⟨cs, pieces, hcs', e.symm, ?_, h2⟩
  simp [noWhitespaceWordpieces, h1]

/-- C33 for running text: the text is split at breaking whitespace and each non-empty word is
segmented on its own; the result is the concatenation of the segmentations. -/
theorem C33_text (vocab : List (List Nat)) (pre text : List Nat) (hpre : isValid pre = true)
    (ht : isValid text = true) :
    ∃ words segs, strSplit whitespaceDelimiter text = some words ∧
      getWordpieces (mkSegmenter pre vocab) text = some (some (.ok (List.flatten segs))) ∧
      segs.length = (words.filter (· ≠ [])).length ∧
      ∀ x ∈ (words.filter (· ≠ [])).zip segs, ∃ cs, (∀ c ∈ cs, Scalar c) ∧
        encodeText cs = effectivePrefix pre ++ x.1 ∧ WordSpec vocab cs x.2 := by
  obtain ⟨cs, hcs, e⟩ := (isValid_iff _).1 ht
  obtain ⟨pieces, ds, h1, h2, h3, h4, h5⟩ := C32_split_lossless whitespaceDelimiter cs
    (fun c hc => (scalar_iff c).1 (hcs c hc))
  have e' : text = encodeText cs := e
  rw [← e'] at h1
  have hval : ∀ w ∈ pieces.map encodeText, isValid w = true := by
    intro w hw
    obtain ⟨p, hp, rfl⟩ := List.mem_map.1 hw
    refine (isValid_iff _).2 ⟨p, ?_, rfl⟩
    intro c hc
    have : c ∈ cs := by
      rw [h3]
      clear h1 h3 hw h2 h4 h5
      induction pieces generalizing ds with
      | nil => cases hp
      | cons q t ih =>
        rcases List.mem_cons.1 hp with rfl | hp
        · cases ds <;> simp [joinWith, hc]
        · cases ds with
          | nil => simp only [joinWith, List.mem_append, List.mem_flatten]; exact Or.inr ⟨p, hp, hc⟩
          | cons d ds =>
            simp only [joinWith, List.mem_append, List.mem_cons]
            exact Or.inr (Or.inr (ih ds hp))
    exact hcs c this
  have key : ∀ ws : List (List Nat), (∀ w ∈ ws, isValid w = true) →
      ∃ segs, noWhitespaceWordpieces (mkSegmenter pre vocab) ws = some (.ok (List.flatten segs)) ∧
        segs.length = ws.length ∧
        ∀ x ∈ ws.zip segs, ∃ cs, (∀ c ∈ cs, Scalar c) ∧
          encodeText cs = effectivePrefix pre ++ x.1 ∧ WordSpec vocab cs x.2 := by
    intro ws
    induction ws with
    | nil => intro _; exact ⟨[], rfl, rfl, by simp⟩
    | cons w ws ih =>
      intro hws
      obtain ⟨cs, ps, hc, he, hn, hsp⟩ := C33_word vocab pre w hpre (hws w (by simp))
      obtain ⟨segs, hs, hl, hz⟩ := ih fun x hx => hws x (by simp [hx])
      refine ⟨ps :: segs, ?_, by simp [hl], ?_⟩
      · simp only [noWhitespaceWordpieces] at hn ⊢
        split at hn
        · cases hn
        · cases hn
        · next qs hq =>
          rw [hs]
          simp only [List.append_nil, Option.some.injEq, Except.ok.injEq] at hn
          simp [hn]
      · intro x hx
        rw [List.zip_cons_cons] at hx
        rcases List.mem_cons.1 hx with rfl | hx
        · exact ⟨cs, hc, he, hsp⟩
        · exact hz x hx
  have hf : (pieces.map encodeText).filter (fun p => !p.isEmpty) =
      (pieces.map encodeText).filter (· ≠ []) := by
    apply List.filter_congr
    intro x _
    cases x <;> rfl
  obtain ⟨segs, hs, hl, hz⟩ := key ((pieces.map encodeText).filter (· ≠ []))
    (fun w hw => hval w (List.mem_filter.1 hw).1)
  refine ⟨_, segs, h1, ?_, hl, hz⟩
  rw [getWordpieces, h1]
  simp only [hf, hs]

/-- C33, error branch: a word that is not valid UTF-8 has no pieces, text that is not valid UTF-8
throws. -/
theorem C33_invalid (seg : Segmenter) (w text : List Nat) :
    (isValid (seg.pre ++ w) = false → noWhitespaceWordpieces seg [w] = some (.ok [])) ∧
    (isValid text = false → getWordpieces seg text = none) := by
  constructor
  · intro h
    have := ((C31_split (seg.pre ++ w)).2.2 h).1
    rw [noWhitespaceWordpieces, this]
    rfl
  · intro h
    rw [getWordpieces, C32_split_invalid _ _ h]

/-- Vocabulary `ab`, `bc`, `▁ab`: the word `abc` becomes `▁ab c`. -/
example : getWordpieces (mkSegmenter [] [[97, 98], [98, 99], [0xE2, 0x96, 0x81, 97, 98]])
    [97, 98, 99] = some (some (.ok [[0xE2, 0x96, 0x81, 97, 98], [99]])) := by rfl

end Nisaba.Props
