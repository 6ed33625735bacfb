import Verif.Lemmas.ErrorRate
import Verif.Props.Delimiters
/-!
# Inputs of the error-rate tool (C59, C60)
-/
namespace Nisaba.Props
open Nisaba.ErrorRate Nisaba.Utf8 Nisaba.Fst

namespace Input

/-- The candidates with their symbols looked up. -/
def texts {κ : Type} (syms : SymTab) (cands : List (Cand κ)) : List (Option Str × κ) :=
  cands.map fun c => (syms[c.1]?, c.2)

theorem texts_ext {κ : Type} {s s' : SymTab} (h : s <+: s') {cands : List (Cand κ)} {l : List (Str × κ)}
    (e : texts s cands = l.map fun x => (some x.1, x.2)) :
    texts s' cands = l.map fun x => (some x.1, x.2) := by
  rw [← e]
  refine List.map_congr_left fun c hc => ?_
  have : (s[c.1]?, c.2) ∈ l.map fun x => (some x.1, x.2) := by
    rw [← e]; exact List.mem_map.2 ⟨c, hc, rfl⟩
  obtain ⟨x, _, hx⟩ := List.mem_map.1 this
  have hx1 : s[c.1]? = some x.1 := (congrArg Prod.fst hx).symm
  have hlt := (List.getElem?_eq_some_iff.1 hx1).1
  obtain ⟨u, rfl⟩ := h
  rw [List.getElem?_append_left hlt]

/-- What the lines of one example are, in the order of the file. -/
def linesOf {κ : Type} (lines : List (Nat × Str × κ)) (i : Nat) : List (Str × κ) :=
  (lines.filter fun l => l.1 == i).map fun l => l.2

/-- What has been read from `lines`. -/
def Holds {κ : Type} (lines : List (Nat × Str × κ)) (syms : SymTab) (inputs : List (List (Cand κ))) :
    Prop :=
  (∀ i, i < inputs.length ↔ ∃ l ∈ lines, i ≤ l.1) ∧
  ∀ i cands, inputs[i]? = some cands →
    texts syms cands = (linesOf lines i).map fun x => (some x.1, x.2)

theorem grow_getElem {α : Type} (l : List (List α)) (n i : Nat) (x : List α)
    (h : (grow l n)[i]? = some x) : l[i]? = some x ∨ (l[i]? = none ∧ x = []) := by
  unfold grow at h
  by_cases hi : i < l.length
  · rw [List.getElem?_append_left hi] at h; exact Or.inl h
  · right
    rw [List.getElem?_append_right (by omega), List.getElem?_replicate] at h
    split at h
    · exact ⟨List.getElem?_eq_none (by omega), by simpa using h.symm⟩
    · cases h

theorem grow_length {α : Type} (l : List (List α)) (n : Nat) : (grow l n).length = max l.length n := by
  simp [grow]; omega

theorem readLoop_holds {κ : Type} (done lines : List (Nat × Str × κ)) (syms : SymTab)
    (inputs : List (List (Cand κ))) (h : Holds done syms inputs) :
    syms <+: (readLoop lines syms inputs).1 ∧
    Holds (done ++ lines) (readLoop lines syms inputs).1 (readLoop lines syms inputs).2 := by
  induction lines generalizing done syms inputs with
  | nil => simpa [readLoop] using h
  | cons l lines ih =>
    obtain ⟨idx, out, v⟩ := l
    rw [readLoop]
    have step : ∀ (syms' : SymTab) (osym : Nat), syms <+: syms' → syms'[osym]? = some out →
        Holds (done ++ [(idx, out, v)]) syms'
          ((grow inputs (idx + 1)).modify idx (· ++ [(osym, v)])) := by
      intro syms' osym hp ho
      refine ⟨fun i => ?_, fun i cands hc => ?_⟩
      · rw [List.length_modify, grow_length]
        constructor
        · intro hi
          by_cases h' : i < inputs.length
          · obtain ⟨l, hl, hle⟩ := (h.1 i).1 h'
            exact ⟨l, by simp [hl], hle⟩
          · exact ⟨(idx, out, v), by simp, by simp only; omega⟩
        · rintro ⟨l, hl, hle⟩
          rcases List.mem_append.1 hl with hl | hl
          · have := (h.1 i).2 ⟨l, hl, hle⟩; omega
          · simp only [List.mem_singleton] at hl; subst hl; simp only at hle; omega
      · have old : ∀ x, (grow inputs (idx + 1))[i]? = some x →
            texts syms' x = (linesOf done i).map fun x => (some x.1, x.2) := by
          intro x hx
          rcases grow_getElem _ _ _ _ hx with hx | ⟨hn, rfl⟩
          · exact texts_ext hp (h.2 i x hx)
          · have : linesOf done i = [] := by
              simp only [linesOf, List.map_eq_nil_iff, List.filter_eq_nil_iff, beq_iff_eq]
              rintro l hl rfl
              have := (h.1 l.1).2 ⟨l, hl, Nat.le_refl _⟩
              rw [List.getElem?_eq_none_iff] at hn; omega
            simp [this, texts]
        rw [List.getElem?_modify] at hc
        by_cases hi : idx = i
        · subst hi
          simp only [if_true] at hc
          cases hg : (grow inputs (idx + 1))[idx]? with
          | none => rw [hg] at hc; cases hc
          | some x =>
            rw [hg] at hc
            simp only [Option.map_eq_map, Option.map_some, Option.some.injEq] at hc
            subst hc
            have := old x hg
            simp only [texts, linesOf, List.map_append, List.filter_append] at this ⊢
            rw [this]
            simp [ho]
        · simp only [if_neg hi, id_map'] at hc
          have := old cands hc
          rw [this]
          simp [linesOf, List.filter_append, hi]
    cases hf : syms.find out with
    | some s =>
      simp only
      have := step syms s (List.prefix_refl _) (find_some hf)
      have := ih (done ++ [(idx, out, v)]) syms _ this
      simpa using this
    | none =>
      simp only [SymTab.add]
      have hp : syms <+: syms ++ [out] := List.prefix_append _ _
      have := step (syms ++ [out]) syms.length hp (by simp)
      have := ih (done ++ [(idx, out, v)]) _ _ this
      refine ⟨hp.trans this.1, ?_⟩
      simpa using this.2

/-- A text and its words: maximal runs of characters that are not breaking whitespace. -/
inductive Words : List Nat → List (List Nat) → Prop
  | nil : Words [] []
  | space {c s ws} : whitespaceDelimiter c = true → Words s ws → Words (c :: s) ws
  | last {w} : w ≠ [] → (∀ c ∈ w, whitespaceDelimiter c = false) → Words w [w]
  | word {w c s ws} : w ≠ [] → (∀ c ∈ w, whitespaceDelimiter c = false) →
      whitespaceDelimiter c = true → Words s ws → Words (w ++ c :: s) (w :: ws)

theorem words_join (pieces : List (List Nat)) (ds : List Nat) (hl : pieces.length = ds.length + 1)
    (hd : ∀ d ∈ ds, whitespaceDelimiter d = true)
    (hp : ∀ p ∈ pieces, ∀ c ∈ p, whitespaceDelimiter c = false) :
    Words (joinWith pieces ds) (pieces.filter fun p => !p.isEmpty) := by
  induction pieces generalizing ds with
  | nil => cases hl
  | cons p ps ih =>
    cases ds with
    | nil =>
      have : ps = [] := by simpa using hl
      subst this
      cases p with
      | nil => exact .nil
      | cons c p =>
        have := Words.last (w := c :: p) (by simp) (hp _ (by simp))
        simpa [joinWith] using this
    | cons d ds =>
      have k := ih ds (by simpa using hl) (fun x hx => hd x (by simp [hx])) (fun q hq => hp q (by simp [hq]))
      cases p with
      | nil => exact Words.space (hd d (by simp)) k
      | cons c p =>
        have := Words.word (w := c :: p) (by simp) (hp _ (by simp)) (hd d (by simp)) k
        simpa [joinWith] using this

theorem encodeText_isEmpty (p : List Nat) : (encodeText p).isEmpty = p.isEmpty := by
  cases p with
  | nil => rfl
  | cons c p =>
    have := encodeRaw_ne_nil c
    cases h : encodeRaw c with
    | nil => exact absurd h this
    | cons x xs => simp [encodeText, h]

theorem strJoin_encode (ws : List (List Nat)) :
    strJoin [32] (ws.map encodeText) = encodeText (strJoin [32] ws) := by
  induction ws with
  | nil => rfl
  | cons w ws ih =>
    cases ws with
    | nil => rfl
    | cons v ws =>
      simp only [List.map_cons, strJoin] at ih ⊢
      rw [ih]
      simp [encodeText, List.flatMap_append, encodeRaw]

theorem strJoin_intercalate (sep : Str) (l : List Str) : strJoin sep l = sep.intercalate l := by
  induction l with
  | nil => rfl
  | cons x l ih =>
    cases l with
    | nil => simp [strJoin, List.intercalate]
    | cons y l => rw [strJoin, ih]; simp [List.intercalate]

theorem filter_map_encode (ps : List (List Nat)) :
    (ps.map encodeText).filter (fun p => !p.isEmpty) =
      (ps.filter fun p => !p.isEmpty).map encodeText := by
  induction ps with
  | nil => rfl
  | cons p ps ih =>
    simp only [List.map_cons, List.filter_cons, encodeText_isEmpty]
    split <;> simp [ih]

end Input

open Input

/-- C59: after reading the two files the candidates of every example are the lines with its number,
with their own texts and values, in the order of the file; there are as many examples as the largest
number requires. -/
theorem C59_read {κ : Type} (refs tests : List (Nat × Str × κ)) (splitChars : Bool) :
    let st := readBoth refs tests splitChars
    (∀ i, i < st.references.length ↔ ∃ l ∈ refs, i ≤ l.1) ∧
    (∀ i, i < st.testInput.length ↔ ∃ l ∈ tests, i ≤ l.1) ∧
    (∀ i cands, st.references[i]? = some cands →
      cands.map (fun c => (st.outputSyms[c.1]?, c.2)) =
        (refs.filter (fun l => l.1 == i)).map (fun l => (some l.2.1, l.2.2))) ∧
    (∀ i cands, st.testInput[i]? = some cands →
      cands.map (fun c => (st.outputSyms[c.1]?, c.2)) =
        (tests.filter (fun l => l.1 == i)).map (fun l => (some l.2.1, l.2.2))) := by
  have h0 : ∀ syms, Holds ([] : List (Nat × Str × κ)) syms [] := fun syms =>
    ⟨fun i => by simp, fun i cands h => by cases h⟩
  obtain ⟨_, hr⟩ := readLoop_holds [] refs [epsilon] [] (h0 _)
  obtain ⟨hp, ht⟩ := readLoop_holds [] tests (readLoop refs [epsilon] []).1 [] (h0 _)
  simp only [List.nil_append] at hr ht
  refine ⟨hr.1, ht.1, fun i cands h => ?_, fun i cands h => ?_⟩
  · have := texts_ext hp (hr.2 i cands h)
    simp only [texts, linesOf, List.map_map] at this
    exact this
  · have := ht.2 i cands h
    simp only [texts, linesOf, List.map_map] at this
    exact this

/-- C59: only a candidate spelled `<epsilon>` shares its symbol with the empty candidate. -/
theorem C59_epsilon {κ : Type} (refs tests : List (Nat × Str × κ)) (splitChars : Bool) (i : Nat)
    (cands : List (Cand κ)) (h : (readBoth refs tests splitChars).testInput[i]? = some cands)
    (v : κ) (hc : (0, v) ∈ cands) : (i, epsilon, v) ∈ tests := by
  have key := (C59_read refs tests splitChars).2.2.2 i cands h
  have hp : [epsilon] <+: (readBoth refs tests splitChars).outputSyms := by
    have h0 : ∀ syms, Holds ([] : List (Nat × Str × κ)) syms [] := fun syms =>
      ⟨fun i => by simp, fun i cands h => by cases h⟩
    exact (readLoop_holds [] refs [epsilon] [] (h0 _)).1.trans
      (readLoop_holds [] tests (readLoop refs [epsilon] []).1 [] (h0 _)).1
  have h0 : (readBoth refs tests splitChars).outputSyms[0]? = some epsilon := by
    obtain ⟨u, hu⟩ := hp
    rw [← hu]; rfl
  have hm : (some epsilon, v) ∈ cands.map
      (fun c => ((readBoth refs tests splitChars).outputSyms[c.1]?, c.2)) :=
    List.mem_map.2 ⟨(0, v), hc, by rw [h0]⟩
  rw [key] at hm
  obtain ⟨l, hl, e⟩ := List.mem_map.1 hm
  obtain ⟨hl1, hl2⟩ := List.mem_filter.1 hl
  obtain ⟨a, b, c⟩ := l
  simp only [Prod.mk.injEq, Option.some.injEq, beq_iff_eq] at e hl2
  obtain ⟨rfl, rfl⟩ := e
  subst hl2
  exact hl1

/-- C60: in word mode the tokens of a text are its words; in character mode they are the characters
of the words joined by single spaces.  Text that is not UTF-8 is refused. -/
theorem C60_tokens (cs : List Nat) (hcs : ∀ c ∈ cs, Scalar c) :
    ∃ ws, Words cs ws ∧
      maybeSplitChars (encodeText cs) false = .ok (ws.map encodeText) ∧
      maybeSplitChars (encodeText cs) true = .ok (([32].intercalate ws).map fun c => encodeRaw c) := by
  obtain ⟨pieces, ds, h1, h2, h3, h4, h5⟩ := C32_split_lossless whitespaceDelimiter cs hcs
  have hw := words_join pieces ds h2 h4 h5
  rw [← h3] at hw
  refine ⟨_, hw, ?_, ?_⟩
  · simp [maybeSplitChars, h1, filter_map_encode]
  · simp only [maybeSplitChars, h1, filter_map_encode, if_true]
    rw [strJoin_encode, ← strJoin_intercalate]
    congr 1
    refine ((C31_split _).1 _ ?_ ?_).1
    · have hs : ∀ p ∈ pieces.filter fun p => !p.isEmpty, ∀ c ∈ p, Scalar c := by
        intro p hp c hc
        refine hcs c ?_
        have hp' := (List.mem_filter.1 hp).1
        rw [h3]
        clear hp
        clear h1 h3 hw h4 h5 hcs
        induction pieces generalizing ds with
        | nil => cases hp'
        | cons q ps ih =>
          cases ds with
          | nil =>
            have : ps = [] := by simpa using h2
            subst this
            simp only [List.mem_singleton] at hp'
            subst hp'
            simp [joinWith, hc]
          | cons d ds =>
            rcases List.mem_cons.1 hp' with rfl | hp'
            · simp [joinWith, hc]
            · simp only [joinWith, List.mem_append, List.mem_cons]
              exact Or.inr (Or.inr (ih ds (by simpa using h2) hp'))
      generalize (pieces.filter fun p => !p.isEmpty) = l at hs
      induction l with
      | nil => simp [strJoin]
      | cons w l ih =>
        cases l with
        | nil => exact hs w (by simp)
        | cons v l =>
          intro c hc
          simp only [strJoin, List.mem_append] at hc
          rcases hc with (hc | hc) | hc
          · exact hs w (by simp) c hc
          · simp only [List.mem_singleton] at hc; subst hc; left; decide
          · exact ih (fun p hp => hs p (by simp [hp])) c hc
    · simp [encodeText, List.flatMap_def]

theorem C60_invalid (s : Str) (b : Bool) (h : isValid s = false) :
    maybeSplitChars s b = .error .invalidUtf8 := by
  simp [maybeSplitChars, C32_split_invalid _ s h]

/-- The words of a text are determined by it. -/
theorem C60_words_unique {s : List Nat} {ws ws' : List (List Nat)} (h : Words s ws) (h' : Words s ws') :
    ws = ws' := by
  have split : ∀ {w s w' s' : List Nat} {c c' : Nat}, (∀ x ∈ w, whitespaceDelimiter x = false) →
      (∀ x ∈ w', whitespaceDelimiter x = false) → whitespaceDelimiter c = true →
      whitespaceDelimiter c' = true → w ++ c :: s = w' ++ c' :: s' → w = w' ∧ s = s' := by
    intro w
    induction w with
    | nil =>
      intro s w' s' c c' _ h2 h3 h4 e
      cases w' with
      | nil => simp at e; exact ⟨rfl, e.2⟩
      | cons x w' =>
        simp at e
        have := h2 x (by simp)
        rw [← e.1, h3] at this; cases this
    | cons x w ih =>
      intro s w' s' c c' h1 h2 h3 h4 e
      cases w' with
      | nil =>
        simp at e
        have := h1 x (by simp)
        rw [e.1, h4] at this; cases this
      | cons y w' =>
        simp only [List.cons_append, List.cons.injEq] at e
        obtain ⟨rfl, e⟩ := e
        obtain ⟨rfl, rfl⟩ := ih (fun a ha => h1 a (by simp [ha])) (fun a ha => h2 a (by simp [ha])) h3 h4 e
        exact ⟨rfl, rfl⟩
  induction h generalizing ws' with
  | nil =>
    generalize hs : ([] : List Nat) = s at h'
    cases h' with
    | nil => rfl
    | space _ _ => cases hs
    | last h _ => exact absurd hs.symm h
    | word h _ _ _ => simp at hs
  | @space c s ws hc _ ih =>
    generalize hs : c :: s = t at h'
    cases h' with
    | nil => cases hs
    | space hc' h => cases hs; exact ih h
    | last hne hno => subst hs; rw [hno c (by simp)] at hc; cases hc
    | @word w d s' ws' hne hno hd h =>
      cases w with
      | nil => exact absurd rfl hne
      | cons x w =>
        simp only [List.cons_append, List.cons.injEq] at hs
        have := hno x (by simp)
        rw [← hs.1, hc] at this; cases this
  | @last w hne hno =>
    cases h' with
    | nil => exact absurd rfl hne
    | @space c s ws hc _ => rw [hno c (by simp)] at hc; cases hc
    | last _ _ => rfl
    | @word w' d s' ws' _ _ hd _ => rw [hno d (by simp)] at hd; cases hd
  | @word w c s ws hne hno hc _ ih =>
    generalize hs : w ++ c :: s = t at h'
    cases h' with
    | nil => simp at hs
    | @space d s' ws' hd _ =>
      cases w with
      | nil => exact absurd rfl hne
      | cons x w =>
        simp only [List.cons_append, List.cons.injEq] at hs
        have := hno x (by simp)
        rw [hs.1, hd] at this; cases this
    | last _ hno' => subst hs; rw [hno' c (by simp)] at hc; cases hc
    | word _ hno' hc' h =>
      obtain ⟨rfl, rfl⟩ := split hno hno' hc hc' hs
      rw [ih h]

/-- Two lines of example 1 around one of example 0. -/
example : (readBoth [(1, [97], 5), (0, [98], 6), (1, [99], 7)] ([] : List (Nat × Str × Nat)) true).references =
    [[(2, 6)], [(1, 5), (3, 7)]] := by decide

/-- `" a\tbc"`. -/
example : maybeSplitChars [32, 97, 9, 98, 99] false = .ok [[97], [98, 99]] ∧
    maybeSplitChars [32, 97, 9, 98, 99] true = .ok [[97], [32], [98], [99]] := by
  exact ⟨by rfl, by rfl⟩

end Nisaba.Props
