import Verif.Model.FileUtil
/-!
# File utilities (C39, C51)
-/
namespace Nisaba.Props
open Nisaba Nisaba.FileUtil

/-! ## C39 -/

/-- Absolute paths. -/
def Absolute (p : Str) : Prop := ∃ q, p = 47 :: q

/-- Components of a path: the non-empty pieces between separators; `acc` is the current piece. -/
def componentsFrom : Str → Str → List Str
  | acc, [] => if acc = [] then [] else [acc]
  | acc, c :: s =>
    if c = 47 then (if acc = [] then [] else [acc]) ++ componentsFrom [] s
    else componentsFrom (acc ++ [c]) s

/-- Components of a path. -/
def components (p : Str) : List Str := componentsFrom [] p

/-- Two separators in a row. -/
def Doubled (p : Str) : Prop := ∃ a b, p = a ++ 47 :: 47 :: b

theorem components_sep (acc a b : Str) :
    componentsFrom acc (a ++ 47 :: b) = componentsFrom acc a ++ components b := by
  induction a generalizing acc with
  | nil => simp [componentsFrom, components]
  | cons c a ih =>
    simp only [List.cons_append, componentsFrom]
    split
    · rw [ih]; simp
    · exact ih _

theorem join_cases (d b : Str) :
    ((Absolute b ∨ d = []) ∧ joinPath d b = b) ∨
    (¬ Absolute b ∧ ∃ d', d = d' ++ [47] ∧ joinPath d b = d' ++ 47 :: b) ∨
    (¬ Absolute b ∧ d ≠ [] ∧ d.getLast? ≠ some 47 ∧ joinPath d b = d ++ 47 :: b) := by
  unfold joinPath
  have habs : (!b.isEmpty && b.head? == some sep) = true ↔ Absolute b := by
    cases b with
    | nil => simp [Absolute]
    | cons c b => simp [Absolute, sep]
  by_cases hb : Absolute b
  · left
    refine ⟨.inl hb, ?_⟩
    rw [habs.2 hb]; rfl
  · have hb' : (!b.isEmpty && b.head? == some sep) = false := by
      cases h : (!b.isEmpty && b.head? == some sep) with
      | false => rfl
      | true => exact absurd (habs.1 h) hb
    rw [hb']
    by_cases hd : d = []
    · left; exact ⟨.inr hd, by simp [hd]⟩
    · right
      have hd' : d.isEmpty = false := by simpa using hd
      rw [hd']
      by_cases hl : d.getLast? = some 47
      · left
        refine ⟨hb, d.dropLast, ?_, ?_⟩
        · have := List.dropLast_concat_getLast hd
          rw [List.getLast?_eq_some_getLast hd] at hl
          rw [Option.some.inj hl] at this
          exact this.symm
        · have hd2 : d = d.dropLast ++ [47] := by
            have := List.dropLast_concat_getLast hd
            rw [List.getLast?_eq_some_getLast hd] at hl
            rw [Option.some.inj hl] at this
            exact this.symm
          simp only [Bool.or_self, Bool.false_eq_true, if_false, hl, sep, beq_self_eq_true, if_true]
          conv => lhs; rw [hd2]
          simp
      · right
        refine ⟨hb, hd, hl, ?_⟩
        have : (d.getLast? == some sep) = false := by simpa [sep] using hl
        simp only [Bool.or_self, Bool.false_eq_true, if_false, this, List.append_assoc, List.singleton_append]
        rfl

/-- C39: joining appends the components of a relative second path to those of the first, an absolute
second path replaces the first one. -/
theorem C39_components (d b : Str) :
    (¬ Absolute b → components (joinPath d b) = components d ++ components b) ∧
    (Absolute b → joinPath d b = b) := by
  rcases join_cases d b with ⟨h, e⟩ | ⟨h, d', rfl, e⟩ | ⟨h, hd, hl, e⟩
  · refine ⟨?_, fun _ => e⟩
    intro hb
    rcases h with h | rfl
    · exact absurd h hb
    · rw [e]; rfl
  · refine ⟨?_, fun hb => absurd hb h⟩
    intro _
    rw [e]
    unfold components
    rw [components_sep, components_sep]
    simp [components, componentsFrom]
  · refine ⟨?_, fun hb => absurd hb h⟩
    intro _
    rw [e]
    exact components_sep [] d b

theorem absolute_append {p q : Str} (hp : p ≠ []) : Absolute (p ++ q) ↔ Absolute p := by
  cases p with
  | nil => exact absurd rfl hp
  | cons c p => simp [Absolute]

theorem doubled_append {a b : Str} (h : Doubled (a ++ 47 :: b)) :
    Doubled (a ++ [47]) ∨ Absolute b ∨ Doubled b := by
  obtain ⟨x, y, e⟩ := h
  rcases List.append_eq_append_iff.1 e with ⟨c, h1, h2⟩ | ⟨c, h1, h2⟩
  · cases c with
    | nil =>
      simp at h2
      exact .inr (.inl ⟨y, h2⟩)
    | cons z c =>
      simp only [List.cons_append, List.cons.injEq] at h2
      exact .inr (.inr ⟨c, y, h2.2⟩)
  · cases c with
    | nil => simp at h2; exact .inr (.inl ⟨y, h2.symm⟩)
    | cons z c =>
      cases c with
      | nil =>
        simp only [List.cons_append, List.nil_append, List.cons.injEq] at h2
        obtain ⟨rfl, -, rfl⟩ := h2
        left
        exact ⟨x, [], by simp [h1]⟩
      | cons w c =>
        simp only [List.cons_append, List.cons.injEq] at h2
        obtain ⟨rfl, rfl, rfl⟩ := h2
        left
        exact ⟨x, c ++ [47], by simp [h1]⟩

/-- C39: the joined path is absolute exactly if one of the two paths is, and joining adds no second
separator to a separator. -/
theorem C39_shape (d b : Str) :
    (Absolute (joinPath d b) ↔ Absolute d ∨ Absolute b) ∧
    (Doubled (joinPath d b) → Doubled d ∨ Doubled b) := by
  rcases join_cases d b with ⟨h, e⟩ | ⟨h, d', rfl, e⟩ | ⟨h, hd, hl, e⟩
  · rw [e]
    refine ⟨⟨.inr, ?_⟩, .inr⟩
    rintro (h' | h')
    · rcases h with h | rfl
      · exact h
      · obtain ⟨q, hq⟩ := h'; cases hq
    · exact h'
  · rw [e]
    constructor
    · have : d' ++ 47 :: b = (d' ++ [47]) ++ b := by simp
      rw [this, absolute_append (by simp)]
      exact ⟨.inl, fun h' => h'.elim id (fun h' => absurd h' h)⟩
    · intro hdbl
      rcases doubled_append hdbl with h' | h' | h'
      · exact .inl h'
      · exact absurd h' h
      · exact .inr h'
  · rw [e]
    constructor
    · rw [absolute_append hd]
      exact ⟨.inl, fun h' => h'.elim id (fun h' => absurd h' h)⟩
    · intro hdbl
      rcases doubled_append hdbl with h' | h' | h'
      · left
        obtain ⟨x, y, e'⟩ := h'
        rcases List.eq_nil_or_concat y with rfl | ⟨y', z, rfl⟩
        · exfalso
          apply hl
          have : d ++ [47] = (x ++ [47]) ++ [47] := by rw [e']; simp
          rw [List.append_cancel_right this]; simp
        · have : d ++ [47] = (x ++ 47 :: 47 :: y') ++ [z] := by
            rw [e']; simp
          have := (List.append_inj' this rfl).1
          exact ⟨x, y', this⟩
      · exact absurd h' h
      · exact .inr h'

theorem join_ne_nil {d b : Str} (h : d ≠ [] ∨ b ≠ []) : joinPath d b ≠ [] := by
  rcases join_cases d b with ⟨h', e⟩ | ⟨h', d', rfl, e⟩ | ⟨h', hd, hl, e⟩
  · rw [e]
    rcases h with h | h
    · rcases h' with ⟨q, rfl⟩ | h'
      · simp
      · exact absurd h' h
    · exact h
  · rw [e]; simp
  · rw [e]; simp

/-- C39: joining is associative, so several components can be joined in any grouping. -/
theorem C39_assoc (a b c : Str) : joinPath (joinPath a b) c = joinPath a (joinPath b c) := by
  by_cases hc : Absolute c
  · rw [(C39_components _ c).2 hc, (C39_components b c).2 hc, (C39_components a c).2 hc]
  by_cases hb : Absolute b
  · rw [(C39_components a b).2 hb]
    have : Absolute (joinPath b c) := ((C39_shape b c).1).2 (.inl hb)
    rw [(C39_components a _).2 this]
  have hbc : ¬ Absolute (joinPath b c) := by
    rw [(C39_shape b c).1]; exact fun h => h.elim hb hc
  by_cases ha : a = []
  · subst ha
    have e : ∀ x, joinPath [] x = x := by
      intro x
      rcases join_cases [] x with ⟨_, e⟩ | ⟨_, d', h, _⟩ | ⟨_, h, _⟩
      · exact e
      · exact absurd h.symm (by simp)
      · exact absurd rfl h
    rw [e, e]
  -- `a` with one separator at its end
  have key : ∃ a', (∀ x, ¬ Absolute x → joinPath a x = a' ++ 47 :: x) := by
    rcases join_cases a b with ⟨h, _⟩ | ⟨_, a', rfl, _⟩ | ⟨_, h, hl, _⟩
    · exact absurd h (fun h => h.elim hb ha)
    · refine ⟨a', fun x hx => ?_⟩
      rcases join_cases (a' ++ [47]) x with ⟨h, _⟩ | ⟨_, d', h, e⟩ | ⟨_, _, h, _⟩
      · exact absurd h (fun h => h.elim hx (by simp))
      · rw [e, (List.append_inj' h rfl).1]
      · exact absurd (by simp) h
    · refine ⟨a, fun x hx => ?_⟩
      rcases join_cases a x with ⟨h, _⟩ | ⟨_, d', h, e⟩ | ⟨_, _, _, e⟩
      · exact absurd h (fun h => h.elim hx ha)
      · exact absurd (by rw [h]; simp) hl
      · exact e
  obtain ⟨a', key⟩ := key
  rw [key b hb, key _ hbc]
  rcases join_cases b c with ⟨h, e⟩ | ⟨_, b', rfl, e⟩ | ⟨_, hbne, hl, e⟩
  · rcases h with h | rfl
    · exact absurd h hc
    · rw [e]
      rcases join_cases (a' ++ [47]) c with ⟨h, _⟩ | ⟨_, d', h, e'⟩ | ⟨_, _, h, _⟩
      · exact absurd h (fun h => h.elim hc (by simp))
      · rw [e', (List.append_inj' h rfl).1]
      · exact absurd (by simp) h
  · rw [e]
    have e0 : a' ++ 47 :: (b' ++ [47]) = (a' ++ 47 :: b') ++ [47] := by simp
    rw [e0]
    rcases join_cases ((a' ++ 47 :: b') ++ [47]) c with ⟨h, _⟩ | ⟨_, d', h, e'⟩ | ⟨_, _, h, _⟩
    · exact absurd h (fun h => h.elim hc (by simp))
    · rw [e', ← (List.append_inj' h rfl).1]; simp
    · exact absurd (by rw [List.getLast?_append]; rfl) h
  · rw [e]
    have hlast : (a' ++ 47 :: b).getLast? ≠ some 47 := by
      cases b with
      | nil => exact absurd rfl hbne
      | cons x b =>
        rw [show a' ++ 47 :: x :: b = (a' ++ [47]) ++ x :: b by simp, List.getLast?_append,
          List.getLast?_eq_some_getLast (by simp : x :: b ≠ [])]
        rw [List.getLast?_eq_some_getLast (by simp : x :: b ≠ [])] at hl
        simpa using hl
    rcases join_cases (a' ++ 47 :: b) c with ⟨h, _⟩ | ⟨_, d', h, e'⟩ | ⟨_, _, _, e'⟩
    · exact absurd h (fun h => h.elim hc (by simp))
    · exact absurd (by rw [h]; simp) hlast
    · rw [e']; simp

/-- `a/` and `b` give `a/b`, with components `a` and `b`. -/
example : joinPath [97, 47] [98] = [97, 47, 98] ∧ components [97, 47, 98] = [[97], [98]] := by decide

/-! ## C51 -/

/-- Contents of a file of lines. -/
def unlines (ls : List Str) : Str := ls.flatMap (fun l => l ++ [10])

theorem getLines_line (acc l s : Str) (h : 10 ∉ l) :
    getLines acc (l ++ 10 :: s) = (acc ++ l) :: getLines [] s := by
  induction l generalizing acc with
  | nil => simp [getLines]
  | cons c l ih =>
    have hc : c ≠ 10 := by rintro rfl; simp at h
    rw [List.cons_append, getLines, if_neg hc, ih _ (by intro h'; exact h (by simp [h']))]
    simp

theorem getLines_last (acc l : Str) (h : 10 ∉ l) :
    getLines acc l = if acc ++ l = [] then [] else [acc ++ l] := by
  induction l generalizing acc with
  | nil => simp [getLines]
  | cons c l ih =>
    have hc : c ≠ 10 := by rintro rfl; simp at h
    rw [getLines, if_neg hc, ih _ (by intro h'; exact h (by simp [h']))]
    simp

theorem getLines_unlines (ls : List Str) (last : Str) (h : ∀ l ∈ ls, 10 ∉ l) (hl : 10 ∉ last) :
    getLines [] (unlines ls ++ last) = ls ++ if last = [] then [] else [last] := by
  induction ls with
  | nil => simpa [unlines] using getLines_last [] last hl
  | cons l ls ih =>
    have e : unlines (l :: ls) ++ last = l ++ 10 :: (unlines ls ++ last) := by simp [unlines]
    rw [e, getLines_line _ _ _ (h l (by simp)), ih (fun x hx => h x (by simp [hx]))]
    simp

/-- The limit on the length of lines. -/
def limit (maxLineLength : Int) : Nat := if maxLineLength < 0 then 32768 else maxLineLength.toNat

/-- C51, lines below the limit: reading returns the non-empty lines of the file in order, whether or
not the last one ends with a line feed.  Missing: carriage returns, see `C51_carriage_return`, and
longer lines, see `C51_long_line`. -/
theorem C51_lines_partial (ls : List Str) (last : Str) (maxLen : Int) (h : ∀ l ∈ ls, 10 ∉ l)
    (hl : 10 ∉ last) (hshort : ∀ l ∈ last :: ls, l.length < limit maxLen) :
    readLines (unlines ls ++ last) maxLen = some ((ls ++ [last]).filter (fun l => !l.isEmpty)) := by
  unfold readLines
  have hpos : 0 < limit maxLen := by have := hshort last (by simp); omega
  rw [show (if maxLen < 0 then 32768 else maxLen.toNat) = limit maxLen from rfl]
  rw [getLines_unlines ls last h hl]
  have e : (ls ++ if last = [] then [] else [last]).filter (fun l => !l.isEmpty) =
      (ls ++ [last]).filter (fun l => !l.isEmpty) := by
    by_cases hlast : last = []
    · simp [hlast, List.filter_append]
    · simp [hlast]
  simp only [e]
  have : limit maxLen ≠ 0 := by omega
  rw [if_neg (by simp [this])]
  congr 1
  conv => rhs; rw [← List.map_id ((ls ++ [last]).filter (fun l => !l.isEmpty))]
  apply List.map_congr_left
  intro l hl'
  have hm := (List.mem_filter.1 hl').1
  have : l.length < limit maxLen := hshort l (by
    rcases List.mem_append.1 hm with h | h
    · simp [h]
    · simp at h; simp [h])
  simp [cutLine, Nat.not_le.2 this]

/-- C51 fails for carriage returns: the documentation says that they are removed. -/
theorem C51_carriage_return (l : Str) (h : 10 ∉ l) (hl : l.length < 100) :
    readLines (l ++ [13, 10]) (-1) = some [l ++ [13]] := by
  have := C51_lines_partial [l ++ [13]] [] (-1) (by simpa using h) (by simp) (by
    intro x hx
    rcases List.mem_cons.1 hx with rfl | hx
    · decide
    · have : x = l ++ [13] := by simpa using hx
      subst this
      have : limit (-1) = 32768 := by decide
      rw [this, List.length_append, List.length_singleton]; omega)
  simpa [unlines] using this

/-- C51: a line that reaches the limit is not cut; one of its bytes is replaced by zero. -/
theorem C51_long_line (l : Str) (maxLen : Int) (h : 10 ∉ l) (hm : 0 < maxLen)
    (hl : maxLen.toNat ≤ l.length) :
    ∃ a x b, l = a ++ x :: b ∧ a.length + 1 = maxLen.toNat ∧
      readLines (l ++ [10]) maxLen = some [a ++ 0 :: b] := by
  have hlt : maxLen.toNat - 1 < l.length := by omega
  refine ⟨l.take (maxLen.toNat - 1), l[maxLen.toNat - 1], l.drop (maxLen.toNat - 1 + 1), ?_, ?_, ?_⟩
  · rw [← List.drop_eq_getElem_cons hlt, List.take_append_drop]
  · rw [List.length_take]; omega
  · have hne : l ≠ [] := by rintro rfl; simp at hl; omega
    unfold readLines
    rw [getLines_line [] l [] h]
    have h1 : ¬ maxLen < 0 := by omega
    have h2 : maxLen.toNat ≠ 0 := by omega
    have h3 : l.isEmpty = false := by simpa using hne
    simp only [h1, if_false, getLines, List.isEmpty_nil, if_true, List.nil_append, List.filter_cons, h3,
      Bool.not_false, List.filter_nil, h2, decide_false, Bool.false_and, Bool.false_eq_true, List.map_cons,
      List.map_nil, cutLine, ge_iff_le, hl]
    rw [List.set_eq_take_append_cons_drop, if_pos hlt]

/-- Two lines, one empty line, the last line without line feed. -/
example : readLines (unlines [[97], []] ++ [98]) 10 = some [[97], [98]] := by decide

end Nisaba.Props
