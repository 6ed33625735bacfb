import Verif.Model.Delimiters
import Verif.Props.Utf8
/-!
# Splitting at UTF-8 delimiters (C32)
-/
namespace Nisaba.Props
open Nisaba.Utf8

/-- Text spelled by characters. -/
def encodeText (cs : List Nat) : List Nat := cs.flatMap encodeRaw

/-- Pieces joined by separators, one separator between consecutive pieces. -/
def joinWith : List (List Nat) → List Nat → List Nat
  | [], _ => []
  | p :: ps, [] => p ++ ps.flatten
  | p :: ps, d :: ds => p ++ d :: joinWith ps ds

/-- Byte length of the first character. -/
def headLen : List Nat → Nat
  | [] => 0
  | c :: _ => (encodeRaw c).length

theorem findFrom_encode (delims : Nat → Bool) (p rest : List Nat) (n off : Nat)
    (hp : ∀ c ∈ p, isScalar c = true ∧ delims c = false)
    (hr : ∀ c ∈ rest, isScalar c = true)
    (hd : ∀ c t, rest = c :: t → delims c = true)
    (hn : (encodeText (p ++ rest)).length ≤ n) :
    findFrom delims n off (encodeText (p ++ rest)) =
      some (off + (encodeText p).length,
        headLen rest) := by
  induction p generalizing n off with
  | nil =>
    cases rest with
    | nil => cases n <;> rfl
    | cons c t =>
      simp only [List.nil_append, encodeText, List.flatMap_cons] at hn ⊢
      have e := decodeNext_encodeRaw c (hr c (by simp)) (t.flatMap encodeRaw)
      cases hb : encodeRaw c with
      | nil => exact absurd hb (encodeRaw_ne_nil c)
      | cons b u =>
        rw [hb] at hn e
        cases n with
        | zero => simp at hn
        | succ n =>
          rw [List.cons_append] at e ⊢
          simp only [findFrom, e, hd c t rfl, if_true, headLen, hb, List.flatMap_nil]
          simp only [List.length_cons, List.length_append, List.length_nil]
          congr 2; omega
  | cons x p ih =>
    simp only [List.cons_append, encodeText, List.flatMap_cons] at hn ⊢
    have e := decodeNext_encodeRaw x (hp x (by simp)).1 ((p ++ rest).flatMap encodeRaw)
    cases hb : encodeRaw x with
    | nil => exact absurd hb (encodeRaw_ne_nil x)
    | cons b u =>
      rw [hb] at hn e
      cases n with
      | zero => simp at hn
      | succ n =>
        rw [List.cons_append] at e ⊢
        simp only [findFrom, e, (hp x (by simp)).2, Bool.false_eq_true, if_false]
        have := ih n
          (off + ((b :: (u ++ (p ++ rest).flatMap encodeRaw)).length -
            ((p ++ rest).flatMap encodeRaw).length)) (fun c hc => hp c (by simp [hc]))
          (by simp only [encodeText]; simp at hn ⊢; omega)
        simp only [encodeText] at this
        rw [this]
        congr 2
        simp
        omega

/-- Decomposition of a character string at the first delimiter. -/
theorem split_first (delims : Nat → Bool) (cs : List Nat) :
    ∃ p rest, cs = p ++ rest ∧ (∀ c ∈ p, delims c = false) ∧
      (∀ c t, rest = c :: t → delims c = true) := by
  induction cs with
  | nil => exact ⟨[], [], rfl, by simp, by simp⟩
  | cons c cs ih =>
    by_cases h : delims c = true
    · exact ⟨[], c :: cs, rfl, by simp, by rintro a t ⟨⟩; exact h⟩
    · obtain ⟨p, rest, e, h1, h2⟩ := ih
      refine ⟨c :: p, rest, by rw [e]; rfl, ?_, h2⟩
      intro x hx
      rcases List.mem_cons.1 hx with rfl | hx
      · simpa using h
      · exact h1 x hx

theorem splitLoop_encode (delims : Nat → Bool) (done : List Nat) (cs : List Nat)
    (hcs : ∀ c ∈ cs, isScalar c = true) (n : Nat) (hn : cs.length < n) :
    ∃ pieces ds, cs = joinWith pieces ds ∧ pieces.length = ds.length + 1 ∧
      (∀ d ∈ ds, delims d = true) ∧ (∀ p ∈ pieces, ∀ c ∈ p, delims c = false) ∧
      splitLoop delims (done ++ encodeText cs) n done.length = some (pieces.map encodeText) := by
  induction n generalizing done cs with
  | zero => omega
  | succ n ih =>
    obtain ⟨p, rest, rfl, h1, h2⟩ := split_first delims cs
    have hf : find delims (done ++ encodeText (p ++ rest)) done.length =
        some (done.length + (encodeText p).length,
          headLen rest) := by
      unfold find
      rw [List.drop_left]
      simp only
      rw [findFrom_encode delims p rest _ 0 (fun c hc => ⟨hcs c (by simp [hc]), h1 c hc⟩)
        (fun c hc => hcs c (by simp [hc])) h2 (Nat.le_refl _)]
      simp
    have ep : ((done ++ encodeText (p ++ rest)).drop done.length).take
        (done.length + (encodeText p).length - done.length) = encodeText p := by
      rw [List.drop_left, Nat.add_sub_cancel_left, encodeText, encodeText, List.flatMap_append,
        List.take_left]
    simp only [splitLoop, hf, ep]
    cases rest with
    | nil =>
      refine ⟨[p], [], by simp [joinWith], rfl, by simp, by simpa using h1, ?_⟩
      simp [encodeText]
    | cons c t =>
      have hne : ¬ done.length + (encodeText p).length =
          (done ++ encodeText (p ++ c :: t)).length := by
        have := List.length_pos_iff.2 (encodeRaw_ne_nil c)
        simp only [encodeText, List.length_append, List.flatMap_append, List.flatMap_cons]
        omega
      rw [if_neg hne]
      obtain ⟨ps, ds, e, hl, hd, hp, hs⟩ := ih (done ++ encodeText (p ++ [c])) t
        (fun x hx => hcs x (by simp [hx])) (by simp at hn; omega)
      have eT : done ++ encodeText (p ++ [c]) ++ encodeText t = done ++ encodeText (p ++ c :: t) := by
        simp [encodeText]
      have eL : (done ++ encodeText (p ++ [c])).length =
          done.length + (encodeText p).length + (encodeRaw c).length := by
        simp [encodeText]; omega
      rw [eT, eL] at hs
      simp only [headLen, hs]
      refine ⟨p :: ps, c :: ds, ?_, by simp [hl], ?_, ?_, rfl⟩
      · rw [e]; rfl
      · intro d hd'
        rcases List.mem_cons.1 hd' with rfl | hd'
        · exact h2 d t rfl
        · exact hd d hd'
      · intro q hq
        rcases List.mem_cons.1 hq with rfl | hq
        · exact h1
        · exact hp q hq

/-- C32: splitting valid text at a set of delimiter characters succeeds; the pieces contain no
delimiter, and joined by the delimiters found between them they give back the text. -/
theorem C32_split_lossless (delims : Nat → Bool) (cs : List Nat) (hcs : ∀ c ∈ cs, Scalar c) :
    ∃ pieces ds, strSplit delims (encodeText cs) = some (pieces.map encodeText) ∧
      pieces.length = ds.length + 1 ∧ cs = joinWith pieces ds ∧
      (∀ d ∈ ds, delims d = true) ∧ (∀ p ∈ pieces, ∀ c ∈ p, delims c = false) := by
  have hlen : cs.length ≤ (encodeText cs).length := by
    clear hcs
    induction cs with
    | nil => simp
    | cons c cs ih =>
      have := List.length_pos_iff.2 (encodeRaw_ne_nil c)
      simp only [encodeText, List.flatMap_cons, List.length_append, List.length_cons] at ih ⊢
      omega
  obtain ⟨ps, ds, h1, h2, h3, h4, h5⟩ := splitLoop_encode delims [] cs
    (fun c hc => (scalar_iff c).2 (hcs c hc)) ((encodeText cs).length + 1) (by omega)
  exact ⟨ps, ds, h5, h2, h1, h3, h4⟩

theorem decodeNext_length {s rest : List Nat} {c : Nat} (h : decodeNext s = some (c, rest)) :
    rest.length < s.length ∧ ∀ t, s = t ++ rest → t = encodeRaw c := by
  obtain ⟨_, e⟩ := decodeNext_some h
  have := List.length_pos_iff.2 (encodeRaw_ne_nil c)
  refine ⟨by rw [e, List.length_append]; omega, ?_⟩
  intro t ht
  exact (List.append_cancel_right (ht.symm.trans e))

theorem findFrom_some (delims : Nat → Bool) (n off : Nat) (s : List Nat) (a l : Nat)
    (h : findFrom delims n off s = some (a, l)) :
    off ≤ a ∧ isValid (s.take (a - off + l)) = true ∧ a - off + l ≤ s.length ∧
      (a - off = s.length ∨ 0 < l) := by
  induction n generalizing off s with
  | zero => cases s with
    | nil => simp [findFrom] at h; obtain ⟨rfl, rfl⟩ := h; simp; decide
    | cons b s => simp [findFrom] at h
  | succ n ih => cases s with
    | nil => simp [findFrom] at h; obtain ⟨rfl, rfl⟩ := h; simp; decide
    | cons b s =>
      simp only [findFrom] at h
      split at h
      · cases h
      · next c rest hn =>
        obtain ⟨hs, e⟩ := decodeNext_some hn
        have hpos := List.length_pos_iff.2 (encodeRaw_ne_nil c)
        rw [e] at h ⊢
        simp only [List.length_append, Nat.add_sub_cancel] at h
        split at h
        · simp only [Option.some.injEq, Prod.mk.injEq] at h
          obtain ⟨rfl, rfl⟩ := h
          refine ⟨Nat.le_refl _, ?_, by simp, Or.inr hpos⟩
          rw [Nat.sub_self, Nat.zero_add, List.take_left]
          exact (isValid_iff _).2 ⟨[c], by simpa using hs, by simp⟩
        · obtain ⟨h1, h2, h3, h4⟩ := ih _ _ h
          have ea : a - off = (encodeRaw c).length + (a - (off + (encodeRaw c).length)) := by omega
          refine ⟨by omega, ?_, by rw [List.length_append]; omega, ?_⟩
          · rw [ea, Nat.add_assoc, List.take_length_add_append]
            obtain ⟨cs, hcs, ecs⟩ := (isValid_iff _).1 h2
            refine (isValid_iff _).2 ⟨c :: cs, ?_, by rw [List.flatMap_cons, ← ecs]⟩
            intro x hx
            rcases List.mem_cons.1 hx with rfl | hx
            · exact hs
            · exact hcs x hx
          · rcases h4 with h4 | h4
            · left; rw [List.length_append]; omega
            · exact Or.inr h4

theorem isValid_append {s t : List Nat} (hs : isValid s = true) (ht : isValid t = true) :
    isValid (s ++ t) = true := by
  obtain ⟨cs, h1, rfl⟩ := (isValid_iff _).1 hs
  obtain ⟨ds, h2, rfl⟩ := (isValid_iff _).1 ht
  refine (isValid_iff _).2 ⟨cs ++ ds, ?_, by rw [List.flatMap_append]⟩
  intro c hc
  rcases List.mem_append.1 hc with hc | hc
  · exact h1 c hc
  · exact h2 c hc

theorem splitLoop_some_valid (delims : Nat → Bool) (text : List Nat) (n pos : Nat)
    (hpos : pos ≤ text.length) (ps : List (List Nat))
    (h : splitLoop delims text n pos = some ps) : isValid (text.drop pos) = true := by
  induction n generalizing pos ps with
  | zero => cases h
  | succ n ih =>
    simp only [splitLoop] at h
    split at h
    · cases h
    · next a l hf =>
      unfold find at hf
      simp only at hf
      split at hf
      · cases hf
      · next off len hff =>
        simp only [Option.some.injEq, Prod.mk.injEq] at hf
        obtain ⟨rfl, rfl⟩ := hf
        obtain ⟨_, h2, h3, h4⟩ := findFrom_some _ _ _ _ _ _ hff
        rw [List.length_drop] at h3 h4
        rw [Nat.min_eq_left hpos] at h
        simp only [Nat.sub_zero, Nat.add_sub_cancel_left] at h2 h3 h4 h
        split at h
        · next he =>
          have : (text.drop pos).take (off + len) = text.drop pos :=
            List.take_of_length_le (by rw [List.length_drop]; omega)
          rw [this] at h2; exact h2
        · next he =>
          split at h
          · cases h
          · next qs hq =>
            rw [List.length_take, List.length_drop, Nat.min_eq_left (by omega)] at hq
            have := ih _ (by omega) _ hq
            rw [← List.take_append_drop (off + len) (text.drop pos)]
            apply isValid_append h2
            rw [List.drop_drop]
            rw [Nat.add_assoc] at this
            exact this

/-- C32, error branch: splitting invalid text throws. -/
theorem C32_split_invalid (delims : Nat → Bool) (text : List Nat) (h : isValid text = false) :
    strSplit delims text = none := by
  cases hs : strSplit delims text with
  | none => rfl
  | some ps =>
    have := splitLoop_some_valid delims text _ 0 (Nat.zero_le _) ps hs
    rw [List.drop_zero, h] at this; cases this

/-- C32: the set of all whitespace characters is the union of the breaking and non-breaking ones,
which are disjoint; in particular joiners and the zero-width space are not delimiters. -/
theorem C32_whitespace_sets (c : Nat) :
    (c ∈ allWhitespace ↔ c ∈ breakingWhitespace ∨ c ∈ nonBreakingWhitespace) ∧
    ¬ (c ∈ breakingWhitespace ∧ c ∈ nonBreakingWhitespace) ∧
    (c ∈ [ZWNJ, ZWJ, ZWS] → whitespaceDelimiter c = false) := by
  refine ⟨?_, ?_, ?_⟩
  · have h1 : ∀ x ∈ allWhitespace, x ∈ breakingWhitespace ∨ x ∈ nonBreakingWhitespace := by decide
    have h2 : ∀ x ∈ breakingWhitespace, x ∈ allWhitespace := by decide
    have h3 : ∀ x ∈ nonBreakingWhitespace, x ∈ allWhitespace := by decide
    exact ⟨h1 c, fun h => h.elim (h2 c) (h3 c)⟩
  · have h : ∀ x ∈ breakingWhitespace, x ∉ nonBreakingWhitespace := by decide
    exact fun hc => h c hc.1 hc.2
  · have h : ∀ x ∈ [ZWNJ, ZWJ, ZWS], whitespaceDelimiter x = false := by decide
    exact h c

/-- C32: the breaking whitespace characters are exactly those with the Unicode property
`White_Space`, the others exactly the zero-width and invisible separators of the C++ table. -/
theorem C32_whitespace_characters (c : Nat) :
    (whitespaceDelimiter c = true ↔ (9 ≤ c ∧ c ≤ 13) ∨ c = 0x20 ∨ c = 0x85 ∨ c = 0xA0 ∨ c = 0x1680 ∨
      (0x2000 ≤ c ∧ c ≤ 0x200A) ∨ c = 0x2028 ∨ c = 0x2029 ∨ c = 0x202F ∨ c = 0x205F ∨ c = 0x3000) ∧
    (c ∈ nonBreakingWhitespace ↔ c = 0x180E ∨ (0x200B ≤ c ∧ c ≤ 0x200D) ∨ c = 0x2060 ∨ c = 0xFEFF) := by
  constructor
  · simp only [whitespaceDelimiter, breakingWhitespace, List.contains_iff_mem, List.mem_cons,
      List.not_mem_nil, or_false]
    omega
  · simp only [nonBreakingWhitespace, List.mem_cons, List.not_mem_nil, or_false]
    omega

/-- C32: the union of two sorted sets is sorted, without duplicates, and has the elements of both. -/
theorem C32_union : ∀ (n : Nat) (a b : List Nat), a.Pairwise (· < ·) → b.Pairwise (· < ·) →
    a.length + b.length < n →
    (setUnion n a b).Pairwise (· < ·) ∧ ∀ c, c ∈ setUnion n a b ↔ c ∈ a ∨ c ∈ b
  | 0, a, b, _, _, h => by omega
  | n + 1, [], b, _, hb, _ => by simp [setUnion, hb]
  | n + 1, x :: a, [], ha, _, _ => by simp [setUnion] at ha ⊢; exact ha
  | n + 1, x :: a, y :: b, ha, hb, h => by
    have ha' := List.pairwise_cons.1 ha
    have hb' := List.pairwise_cons.1 hb
    simp only [List.length_cons] at h
    simp only [setUnion]
    split
    · rename_i hxy
      obtain ⟨h1, h2⟩ := C32_union n a (y :: b) ha'.2 hb (by simp only [List.length_cons]; omega)
      refine ⟨List.pairwise_cons.2 ⟨?_, h1⟩, ?_⟩
      · intro z hz
        rcases (h2 z).1 hz with hz | hz
        · exact ha'.1 z hz
        · rcases List.mem_cons.1 hz with rfl | hz
          · exact hxy
          · exact Nat.lt_trans hxy (hb'.1 z hz)
      · intro c
        simp only [List.mem_cons, h2, or_assoc]
    · split
      · rename_i _ hyx
        obtain ⟨h1, h2⟩ := C32_union n (x :: a) b ha hb'.2 (by simp only [List.length_cons]; omega)
        refine ⟨List.pairwise_cons.2 ⟨?_, h1⟩, ?_⟩
        · intro z hz
          rcases (h2 z).1 hz with hz | hz
          · rcases List.mem_cons.1 hz with rfl | hz
            · exact hyx
            · exact Nat.lt_trans hyx (ha'.1 z hz)
          · exact hb'.1 z hz
        · intro c
          simp only [List.mem_cons, h2]
          constructor
          · rintro (h | (h | h) | h) <;> simp [h]
          · rintro ((h | h) | h | h) <;> simp [h]
      · rename_i h3 h4
        have e : x = y := by omega
        obtain ⟨h1, h2⟩ := C32_union n a b ha'.2 hb'.2 (by omega)
        refine ⟨List.pairwise_cons.2 ⟨?_, h1⟩, ?_⟩
        · intro z hz
          rcases (h2 z).1 hz with hz | hz
          · exact ha'.1 z hz
          · exact e ▸ hb'.1 z hz
        · intro c
          simp only [List.mem_cons, h2, e]
          constructor
          · rintro (h | h | h) <;> simp [h]
          · rintro ((h | h) | h | h) <;> simp [h]

example : setUnion 6 [1, 3, 5] [3, 4] = [1, 3, 4, 5] := by decide

/-- `a`, ideographic space, `क`, space: three pieces, the last one empty. -/
example : strSplit whitespaceDelimiter (encodeText [0x61, 0x3000, 0x915, 0x20]) =
    some [[0x61], [0xE0, 0xA4, 0x95], []] := by decide

end Nisaba.Props
