import Verif.Lemmas.Emd
import Mathlib.Tactic.NormNum
/-!
# Properties of the character error rate by earth mover's distance
(nisaba/translit/tools/emd_cer.py, calculate_emd_cer.py and the lines written for them)
-/
namespace Nisaba.Props.Emd
open Nisaba Nisaba.Emd Nisaba.ErrorRate Nisaba.Utf8 Finset

/-- C100: for hypotheses of probabilities `a`, references of probabilities `b`, and whatever least
cost flow the solver returns, the edits reported for a line are the least expected number of edits
over all joint distributions of hypothesis and reference, and the reference length is the expected
length of a reference, the same for all flows. -/
theorem C100_emd (a b : List ℚ) (edits : List (List Nat)) (lens : List Nat)
    (ha : edits.length = a.length) (hb : ∀ r ∈ edits, r.length = b.length)
    (hl : lens.length = b.length)
    (emd : List ℚ → List ℚ → List (List ℚ) → ℚ × List (List ℚ))
    (h : IsEmd (jline a b edits lens).p1 (jline a b edits lens).p2 (jline a b edits lens).D
      (emd (jline a b edits lens).p1 (jline a b edits lens).p2 (jline a b edits lens).D)) :
    (∃ M, Coupling a b M ∧
      (emdErrorAndLength emd (jline a b edits lens)).1 = expectedEdits a b edits M) ∧
    (∀ M, Coupling a b M →
      (emdErrorAndLength emd (jline a b edits lens)).1 ≤ expectedEdits a b edits M) ∧
    (emdErrorAndLength emd (jline a b edits lens)).2 =
      ∑ j ∈ range b.length, b.getD j 0 * ((lens.getD j 0 : Nat) : ℚ) := by
  obtain ⟨hF, hc, hmin⟩ := h
  simp only [jline] at hF hc hmin
  refine ⟨⟨part a _, part_coupling hF, ?_⟩, ?_, ?_⟩
  · rw [← part_cost ha hb hF]
    exact hc
  · intro M hM
    rw [← flowOf_cost ha hb hM]
    exact hmin _ (flowOf_flow hM)
  · have := refLen_eq (L := List.replicate a.length 0 ++ lens.map (fun x : Nat => (x : ℚ))) hF
      (by simp [hl])
    unfold emdErrorAndLength
    simp only [jline]
    rw [this, List.length_append, List.length_replicate, sum_range_add,
      sum_eq_zero (s := range a.length), zero_add]
    · refine sum_congr rfl fun j hj => ?_
      have e : ∀ l : List ℚ, (List.replicate a.length (0 : ℚ) ++ l).getD (a.length + j) 0 = l.getD j 0 := by
        intro l
        conv_lhs => rw [show a.length + j = (List.replicate a.length (0 : ℚ)).length + j by simp]
        rw [getD_append_right']
      rw [e, e]
      congr 1
      simp only [List.getD_eq_getElem?_getD, List.getElem?_map]
      cases lens[j]? <;> simp
    · intro j hj
      rw [getD_append_left' (by simpa using hj), getD_replicate', zero_mul]

/-- The joint distribution of two hypotheses and one reference. -/
def sample (i j : Nat) : ℚ := if j = 0 then if i = 0 then 1/4 else 3/4 else 0

/-- The least cost flow of a line with two hypotheses and one reference. -/
example : IsEmd (jline [1/4, 3/4] [1] [[2], [0]] [5]).p1 (jline [1/4, 3/4] [1] [[2], [0]] [5]).p2
    (jline [1/4, 3/4] [1] [[2], [0]] [5]).D (1/2, flowOf [1/4, 3/4] [1] sample) := by
  refine isEmd_flowOf rfl (by simp) ⟨?_, ?_, ?_⟩ ?_ ?_
  · intro i j
    unfold sample
    split
    · split <;> norm_num
    · exact le_refl _
  · intro i hi
    match i, hi with
    | 0, _ => simp [sample]
    | 1, _ => simp [sample]
  · intro j hj
    match j, hj with
    | 0, _ =>
      simp [sample, sum_range_succ]
      norm_num
  · simp [expectedEdits, sum_range_succ, sample]
    norm_num
  · intro M hM
    have h0 := hM.hyp 0 (by simp)
    simp at h0
    simp [expectedEdits, sum_range_succ, h0]
    norm_num

/-- C100: with one hypothesis and one reference the edits and the length are those of the pair. -/
theorem C100_pair (e len : Nat) (emd : List ℚ → List ℚ → List (List ℚ) → ℚ × List (List ℚ))
    (h : IsEmd [1, 0] [0, 1] [[0, (e : ℚ)], [(e : ℚ), 0]]
      (emd [1, 0] [0, 1] [[0, (e : ℚ)], [(e : ℚ), 0]])) :
    emdErrorAndLength emd (jline [1] [1] [[e]] [len]) = ((e : ℚ), (len : ℚ)) := by
  obtain ⟨⟨M, hM, h1⟩, -, h3⟩ := C100_emd [1] [1] [[e]] [len] rfl (by simp) rfl emd h
  have hm := hM.hyp 0 (by simp)
  simp at hm
  refine Prod.ext ?_ ?_
  · rw [h1]; simp [expectedEdits, hm]
  · rw [h3]; simp

example : IsEmd [1, 0] [0, 1] [[0, ((3 : Nat) : ℚ)], [((3 : Nat) : ℚ), 0]]
    (3, flowOf [1] [1] (fun _ _ => 1)) := by
  refine isEmd_flowOf (a := [1]) (b := [1]) (edits := [[3]]) (lens := [4]) rfl (by simp)
    ⟨?_, ?_, ?_⟩ ?_ ?_
  · intro _ _; norm_num
  · intro i hi; simp at hi; subst hi; simp
  · intro i hi; simp at hi; subst hi; simp
  · simp [expectedEdits]
  · intro M hM
    have h0 := hM.hyp 0 (by simp)
    simp at h0
    simp [expectedEdits, h0]

/-- C100: the totals are the sums over the lines. -/
theorem C100_totals (emd : List ℚ → List ℚ → List (List ℚ) → ℚ × List (List ℚ)) (js : List JLine) :
    totals emd js = ((js.map fun j => (emdErrorAndLength emd j).1).sum,
      (js.map fun j => (emdErrorAndLength emd j).2).sum) := by
  have : ∀ (js : List JLine) (t : ℚ × ℚ),
      js.foldl (fun t j => (t.1 + (emdErrorAndLength emd j).1, t.2 + (emdErrorAndLength emd j).2)) t =
      (t.1 + (js.map fun j => (emdErrorAndLength emd j).1).sum,
        t.2 + (js.map fun j => (emdErrorAndLength emd j).2).sum) := by
    intro js
    induction js with
    | nil => simp
    | cons j js ih => intro t; simp [ih, add_assoc]
  unfold totals
  rw [this]
  simp

/-- C101: for the error rate in characters, the length of a reference whose words are separated by
single spaces is the number of its tokens.  Missing: other white space and the error rate in words,
see `C101_violated_words` and `C101_violated_spaces`. -/
theorem C101_lengths_partial (refs : List Str) (toks : List (List Str))
    (h : refs.mapM (maybeSplitChars · true) = .ok toks)
    (hw : ∀ s ∈ refs, ∃ ws, maybeSplitChars s false = .ok ws ∧ strJoin [32] ws = s) :
    getLengths refs = toks.map List.length := by
  induction refs generalizing toks with
  | nil => simp [getLengths, pure, Except.pure] at h ⊢; subst h; rfl
  | cons s refs ih =>
    obtain ⟨ws, hws, hs⟩ := hw s (List.mem_cons_self ..)
    have e : maybeSplitChars s true = .ok (strSplitByChar s) := by
      unfold maybeSplitChars at hws ⊢
      cases hp : strSplit whitespaceDelimiter s with
      | none => rw [hp] at hws; cases hws
      | some ps =>
        rw [hp] at hws
        simp only [Bool.false_eq_true, if_false, Except.ok.injEq] at hws
        simp only [hws, if_true, hs]
    rw [List.mapM_cons, e] at h
    cases ht : refs.mapM (maybeSplitChars · true) with
    | error x => rw [ht] at h; cases h
    | ok ts =>
      rw [ht] at h
      cases h
      have := ih ts ht (fun s hs => hw s (List.mem_cons_of_mem _ hs))
      simp only [getLengths, List.map_cons] at this ⊢
      rw [this]

example : ∃ ws, maybeSplitChars [97, 98, 32, 99] false = .ok ws ∧ strJoin [32] ws = [97, 98, 32, 99] :=
  ⟨[[97, 98], [99]], by decide +kernel, by decide⟩

/-- C101: for the error rate in words, lengths are still counted in characters: the reference `ab`
has one token but length 2. -/
theorem C101_violated_words :
    maybeSplitChars [97, 98] false = .ok [[97, 98]] ∧ getLengths [[97, 98]] = [2] := by
  constructor <;> decide +kernel

/-- C101: white space that the tokens are free of is counted: the reference `a` after two spaces has
one token but length 3. -/
theorem C101_violated_spaces :
    maybeSplitChars [32, 32, 97] true = .ok [[97]] ∧ getLengths [[32, 32, 97]] = [3] := by
  constructor <;> decide +kernel

/-- Characters that JSON strings hold unescaped. -/
def Plain (c : Nat) : Prop := 32 ≤ c ∧ c ≠ 34 ∧ c ≠ 92

theorem jsonString_cons {c : Nat} {s : Str} (h : Plain c) :
    jsonString (c :: s) = (jsonString s).map fun r => (c :: r.1, r.2) := by
  unfold Plain at h
  rw [jsonString.eq_def]
  split
  · rename_i e; cases e
  · rename_i e; cases e; omega
  · rename_i e; cases e; omega
  · rename_i e; cases e; omega
  · rename_i e; cases e
    rw [if_neg (by omega)]

theorem jsonString_plain (w rest : Str) (h : ∀ c ∈ w, Plain c) :
    jsonString (w ++ 34 :: rest) = some (w, rest) := by
  induction w with
  | nil => rw [List.nil_append, jsonString]
  | cons c w ih =>
    rw [List.cons_append, jsonString_cons (h c (List.mem_cons_self ..)),
      ih (fun d hd => h d (List.mem_cons_of_mem _ hd))]
    rfl

theorem jsonString_length (t w rest : Str) (h : jsonString t = some (w, rest)) :
    w.length + 1 + rest.length ≤ t.length ∧
      (w.length + 1 + rest.length = t.length → ∀ c ∈ w, Plain c) := by
  fun_induction jsonString t generalizing w rest with
  | case1 => cases h
  | case2 r =>
    cases h
    simp [Nat.add_comm]
  | case3 a b c d t a' b' c' d' _ _ _ _ ih =>
    simp only [Option.map_eq_some_iff] at h
    obtain ⟨⟨w', r'⟩, h1, h2⟩ := h
    cases h2
    have := ih _ _ h1
    simp only [List.length_cons]
    exact ⟨by omega, by omega⟩
  | case4 => cases h
  | case5 e t _ c _ ih =>
    simp only [Option.map_eq_some_iff] at h
    obtain ⟨⟨w', r'⟩, h1, h2⟩ := h
    cases h2
    have := ih _ _ h1
    simp only [List.length_cons]
    exact ⟨by omega, by omega⟩
  | case6 => cases h
  | case7 => cases h
  | case8 c t h1 h2 h3 h4 ih =>
    simp only [Option.map_eq_some_iff] at h
    obtain ⟨⟨w', r'⟩, h5, h6⟩ := h
    cases h6
    have := ih _ _ h5
    simp only [List.length_cons]
    refine ⟨by omega, fun e d hd => ?_⟩
    rcases List.mem_cons.1 hd with rfl | hd
    · refine ⟨by omega, ?_, by omega⟩
      rintro rfl
      exact h1 rfl
    · exact this.2 (by omega) d hd

/-- C102: a word in the lines of calculate_error_rate is read back by the JSON parser if and only if
it has no quotation mark, backslash or control character. -/
theorem C102_word_iff (w rest : Str) :
    jsonString (w ++ 34 :: rest) = some (w, rest) ↔ ∀ c ∈ w, Plain c := by
  constructor
  · intro h
    exact (jsonString_length _ _ _ h).2 (by simp; omega)
  · exact jsonString_plain w rest

theorem takeWhile_num (n : Str) (hn : ∀ c ∈ n, c ≠ 44 ∧ c ≠ 125) (x : Nat) (hx : x = 44 ∨ x = 125)
    (t : Str) : (n ++ x :: t).takeWhile (fun c => c != 44 && c != 125) = n := by
  induction n with
  | nil => rcases hx with rfl | rfl <;> simp
  | cons c n ih =>
    have := hn c (List.mem_cons_self ..)
    simp [this, ih (fun d hd => hn d (List.mem_cons_of_mem _ hd))]

/-- C102: the object of candidates is read back with all its members in order if the words have no
quotation mark, backslash or control character.  Missing: other words, see `C102_violated`. -/
theorem C102_members_partial (cands : List (Str × Str)) (hne : cands ≠ [])
    (hw : ∀ x ∈ cands, ∀ c ∈ x.1, Plain c) (hn : ∀ x ∈ cands, ∀ c ∈ x.2, c ≠ 44 ∧ c ≠ 125)
    (rest : Str) :
    jsonMembers cands.length (writeCands true cands ++ 125 :: rest) = some (cands, rest) := by
  have key : ∀ (l : List (Str × Str)), (∀ x ∈ l, ∀ c ∈ x.1, Plain c) →
      (∀ x ∈ l, ∀ c ∈ x.2, c ≠ 44 ∧ c ≠ 125) → ∀ (w n : Str), (∀ c ∈ w, Plain c) →
      (∀ c ∈ n, c ≠ 44 ∧ c ≠ 125) →
      jsonMembers (l.length + 1)
        (34 :: (w ++ 34 :: 58 :: 32 :: (n ++ (writeCands false l ++ 125 :: rest)))) =
        some ((w, n) :: l, rest) := by
    intro l
    induction l with
    | nil =>
      intro _ _ w n hw hn
      simp only [List.length_nil, writeCands, List.nil_append, jsonMembers]
      rw [jsonString_plain _ _ hw]
      simp only [takeWhile_num n hn 125 (Or.inr rfl), List.drop_left]
    | cons x l ih =>
      intro hw' hn' w n hw hn
      obtain ⟨w1, n1⟩ := x
      have hx := ih (fun x hx => hw' x (List.mem_cons_of_mem _ hx))
        (fun x hx => hn' x (List.mem_cons_of_mem _ hx)) w1 n1
        (hw' _ (List.mem_cons_self ..)) (hn' _ (List.mem_cons_self ..))
      rw [jsonMembers]
      simp only [List.length_cons]
      rw [jsonString_plain _ _ hw]
      have e : writeCands false ((w1, n1) :: l) ++ 125 :: rest =
          44 :: 32 :: 34 :: (w1 ++ 34 :: 58 :: 32 :: (n1 ++ (writeCands false l ++ 125 :: rest))) := by
        simp [writeCands]
      simp only [e, takeWhile_num n hn 44 (Or.inl rfl), List.drop_left, hx, Option.map_some]
  cases cands with
  | nil => exact absurd rfl hne
  | cons x l =>
    obtain ⟨w, n⟩ := x
    have := key l (fun x hx => hw x (List.mem_cons_of_mem _ hx))
      (fun x hx => hn x (List.mem_cons_of_mem _ hx)) w n
      (hw _ (List.mem_cons_self ..)) (hn _ (List.mem_cons_self ..))
    rw [← this]
    simp [writeCands]

example : ∀ x ∈ [([2325, 32], [48, 46, 53]), ([97, 125], [49])],
    (∀ c ∈ x.1, Plain c) ∧ ∀ c ∈ x.2, c ≠ 44 ∧ c ≠ 125 := by
  unfold Plain; decide

/-- C102: the line of a candidate with a quotation mark, `a"b`, is no JSON, and a candidate with the
characters `\n` is read as another word. -/
theorem C102_violated :
    jsonMembers 1 (writeCands true [([97, 34, 98], [49])] ++ [125]) = none ∧
      jsonMembers 1 (writeCands true [([97, 92, 110], [49])] ++ [125]) =
        some ([([97, 10], [49])], []) := by
  constructor <;> decide +kernel

end Nisaba.Props.Emd
