import Verif.Model.WordpieceText
import Verif.Props.Wordpiece
import Verif.Props.FileUtil
/-!
# Lemmas about the vocabulary file and the text output of the word-piece segmenter
-/
namespace Nisaba.Wordpiece
open Nisaba.Utf8 Nisaba.Props

/-- A byte below 128 occurs in the encoding of one character only. -/
theorem mem_encodeRaw_ascii {b c : Nat} (hb : b < 128) (h : b ∈ encodeRaw c) : c = b := by
  unfold encodeRaw at h
  split at h
  · exact (List.mem_singleton.1 h).symm
  · split at h
    · simp at h; omega
    · split at h <;> · simp at h; omega

theorem mem_encodeText_ascii {b : Nat} {cs : List Nat} (hb : b < 128) (h : b ∈ encodeText cs) :
    b ∈ cs := by
  obtain ⟨c, hc, h⟩ := List.mem_flatMap.1 h
  exact mem_encodeRaw_ascii hb h ▸ hc

theorem encodeText_eq_nil {cs : List Nat} (h : encodeText cs = []) : cs = [] := by
  cases cs with
  | nil => rfl
  | cons c t =>
    simp only [encodeText, List.flatMap_cons, List.append_eq_nil_iff] at h
    exact absurd h.1 (encodeRaw_ne_nil c)

theorem encodeText_isEmpty (cs : List Nat) : (encodeText cs).isEmpty = cs.isEmpty := by
  cases cs with
  | nil => rfl
  | cons c t =>
    cases h : encodeText (c :: t) with
    | nil => exact absurd (encodeText_eq_nil h) (by simp)
    | cons _ _ => rfl

theorem encodeText_append (a b : List Nat) : encodeText (a ++ b) = encodeText a ++ encodeText b := by
  simp [encodeText]

theorem splitOnP_joinWith (p : Nat → Bool) (pieces : List (List Nat)) (ds : List Nat)
    (hl : pieces.length = ds.length + 1) (hd : ∀ d ∈ ds, p d = true)
    (hp : ∀ q ∈ pieces, ∀ c ∈ q, p c = false) : (joinWith pieces ds).splitOnP p = pieces := by
  induction ds generalizing pieces with
  | nil =>
    obtain ⟨q, rfl⟩ := List.length_eq_one_iff.1 hl
    simpa [joinWith] using List.splitOnP_eq_singleton (hp q (by simp))
  | cons d ds ih =>
    cases pieces with
    | nil => simp at hl
    | cons q ps =>
      rw [joinWith, List.splitOnP_append_cons_of_forall_mem (hp q (by simp)) d (hd d (by simp)),
        ih ps (by simpa using hl) (fun x hx => hd x (by simp [hx])) (fun x hx => hp x (by simp [hx]))]

/-- Splitting encoded text is splitting the characters. -/
theorem strSplit_encode (p : Nat → Bool) (cs : List Nat) (hcs : ∀ c ∈ cs, Scalar c) :
    strSplit p (encodeText cs) = some ((cs.splitOnP p).map encodeText) := by
  obtain ⟨pieces, ds, h1, h2, h3, h4, h5⟩ := C32_split_lossless p cs hcs
  rw [h1, h3, splitOnP_joinWith p pieces ds h2 h4 h5]

theorem filter_encode (l : List (List Nat)) :
    (l.map encodeText).filter (fun t => !t.isEmpty) =
      (l.filter fun t => !t.isEmpty).map encodeText := by
  rw [List.filter_map]
  congr 1
  apply List.filter_congr
  intro x _
  simp [encodeText_isEmpty]

theorem readPieces_eq (p : List Nat → Option (List Nat)) (acc : List (List Nat))
    (ls : List (List Nat)) (h : ∀ l ∈ ls, ∃ toks, strSplit whitespaceDelimiter l = some toks ∧
      (toks.filter fun t => !t.isEmpty).head? = p l) :
    readPieces acc ls = some (acc ++ ls.filterMap p) := by
  induction ls generalizing acc with
  | nil => simp [readPieces]
  | cons l ls ih =>
    obtain ⟨toks, h1, h2⟩ := h l (by simp)
    simp only [readPieces, h1]
    cases hf : toks.filter fun t => !t.isEmpty with
    | nil =>
      rw [hf] at h2
      simp only
      rw [ih acc (fun x hx => h x (by simp [hx])), List.filterMap_cons, ← h2]
      rfl
    | cons t r =>
      rw [hf] at h2
      simp only
      rw [ih _ (fun x hx => h x (by simp [hx])), List.filterMap_cons, ← h2]
      simp

theorem readPieces_invalid (acc : List (List Nat)) (ls : List (List Nat)) (l : List Nat)
    (hl : l ∈ ls) (h : isValid l = false) : readPieces acc ls = none := by
  induction ls generalizing acc with
  | nil => cases hl
  | cons x ls ih =>
    rcases List.mem_cons.1 hl with rfl | hl
    · simp [readPieces, C32_split_invalid _ _ h]
    · simp only [readPieces]
      split
      · rfl
      · split <;> exact ih _ hl

theorem bestMerges_ne {vocab ps qs : List (List Nat)} (h : BestMerges vocab ps qs)
    (hp : ∀ p ∈ ps, p ≠ []) : ∀ q ∈ qs, q ≠ [] := by
  induction h with
  | refl ps => exact hp
  | step hs _ ih =>
    apply ih
    obtain ⟨a, p, q, c, r, rfl, rfl, _, _⟩ := hs
    intro x hx
    rcases List.mem_append.1 hx with hx | hx
    · exact hp x (by simp [hx])
    · rcases List.mem_cons.1 hx with rfl | hx
      · have := hp p (by simp)
        simp [this]
      · exact hp x (by simp [hx])

theorem joinSpace_filter (ps : List (List Nat)) (h : ∀ p ∈ ps, 32 ∉ p) :
    (joinSpace ps).filter (fun b => decide (b ≠ 32)) = ps.flatten := by
  have hf : ∀ p : List Nat, 32 ∉ p → p.filter (fun b => decide (b ≠ 32)) = p := by
    intro p hp
    rw [List.filter_eq_self]
    intro x hx
    simp only [ne_eq, decide_not, Bool.not_eq_eq_eq_not, Bool.not_true, decide_eq_false_iff_not]
    rintro rfl
    exact hp hx
  induction ps with
  | nil => rfl
  | cons p ps ih =>
    have ih := ih fun x hx => h x (by simp [hx])
    have h1 := hf p (h p (by simp))
    cases ps with
    | nil => simp only [joinSpace, h1, List.flatten_cons, List.flatten_nil, List.append_nil]
    | cons q ps =>
      rw [joinSpace, List.filter_append, h1, List.filter_cons_of_neg (by simp), ih]
      rfl

theorem joinSpace_split (ps : List (List Nat)) (h : ∀ p ∈ ps, 32 ∉ p) (hne : ps ≠ []) :
    (joinSpace ps).splitOnP (fun b => b == 32) = ps := by
  have hn : ∀ p : List Nat, 32 ∉ p → ∀ x ∈ p, (x == 32) = false := by
    intro p hp x hx
    rw [beq_eq_false_iff_ne]
    rintro rfl
    exact hp hx
  induction ps with
  | nil => exact absurd rfl hne
  | cons p ps ih =>
    cases ps with
    | nil => exact List.splitOnP_eq_singleton (hn p (h p (by simp)))
    | cons q ps =>
      rw [joinSpace, List.splitOnP_append_cons_of_forall_mem (hn p (h p (by simp))) 32 (by rfl),
        ih (fun x hx => h x (by simp [hx])) (by simp)]

/-- Words that do not contain the first character of the prefix can be read off. -/
theorem prefixed_injective (q : Nat) (qs : List Nat) (ws vs : List (List Nat))
    (hw : ∀ w ∈ ws, q ∉ w) (hv : ∀ v ∈ vs, q ∉ v)
    (h : ws.flatMap (fun w => q :: qs ++ w) = vs.flatMap (fun v => q :: qs ++ v)) : ws = vs := by
  induction ws generalizing vs with
  | nil =>
    cases vs with
    | nil => rfl
    | cons v vs => simp at h
  | cons w ws ih =>
    cases vs with
    | nil => simp at h
    | cons v vs =>
      simp only [List.flatMap_cons, List.cons_append, List.append_assoc, List.cons.injEq, true_and,
        List.append_cancel_left_eq] at h
      have key : ∀ (u : List Nat) (us : List (List Nat)), q ∉ u →
          (u ++ us.flatMap fun w => q :: (qs ++ w)).takeWhile (· != q) = u := by
        intro u us hu
        rw [List.takeWhile_append_of_pos (by
          intro x hx
          simp only [bne_iff_ne, ne_eq]
          rintro rfl
          exact hu hx)]
        cases us <;> simp
      have e : w = v := by
        rw [← key w ws (hw w (by simp)), ← key v vs (hv v (by simp)), h]
      subst e
      rw [List.append_cancel_left_eq] at h
      rw [ih vs (fun x hx => hw x (by simp [hx])) (fun x hx => hv x (by simp [hx])) (by
        simpa using h)]

end Nisaba.Wordpiece
