import Verif.Lemmas.PortFile
/-! # Properties of nisaba/port/file.cc -/
namespace Nisaba.Props.PortFile
open Nisaba.PortFile

/-- C98: for a maximum below 2^63, `ReadToString` delivers the first `max_length` bytes of the file,
or all of them if there are fewer, however many blocks that takes; it returns their number and leaves
the other bytes in the file.  Missing: larger maxima, see `C98_violated`. -/
theorem C98_read_to_string_partial (file : Str) (maxLength : Nat) (h : maxLength < 2 ^ 63) :
    ∃ out rest, readToString file maxLength = .ok out.length out rest ∧ out ++ rest = file ∧
      out.length = min maxLength file.length := by
  refine ⟨file.take maxLength, file.drop maxLength, ?_, List.take_append_drop .., by simp⟩
  rw [readToString_eq h, List.length_take]

/-- The hypothesis of `C98_read_to_string_partial` holds for files of more than one block. -/
example : (3 * 2 ^ 21 : Nat) < 2 ^ 63 := by decide

example : readToString [104, 105, 10] 2 = .ok 2 [104, 105] [10] :=
  readToString_eq (by decide) _

/-- C98: with the largest `uint64_t` as "no maximum", every file is lost in an exception; and with
2^63 nothing is read of any file, though the call returns as if the file was empty. -/
theorem C98_violated (file : Str) :
    readToString file (2 ^ 64 - 1) = .badArrayNewLength ∧
      readToString file (2 ^ 63) = .ok 0 [] file := by
  constructor
  · unfold readToString
    have e : toInt64 (2 ^ 64 - 1) = -1 := by decide
    simp only [e]
    rw [if_neg (by decide), if_pos (by decide)]
  · unfold readToString
    have e : toInt64 (2 ^ 63) = -2 ^ 63 := by decide
    simp only [e]
    rw [if_neg (by decide), if_neg (by decide)]
    have e3 : Int.toNat (-2 ^ 63) = 0 := by decide
    rw [e3]
    unfold readLoop
    simp

/-- C98: what `WriteString` calls write is what `ReadToString` reads, whatever the bytes. -/
theorem C98_write_read (parts : List Str) (maxLength : Nat) (h : maxLength < 2 ^ 63)
    (hl : parts.flatten.length ≤ maxLength) :
    readToString (parts.foldl writeString []) maxLength =
      .ok parts.flatten.length parts.flatten [] := by
  have e : ∀ (ps : List Str) (f : Str), ps.foldl writeString f = f ++ ps.flatten := by
    intro ps
    induction ps with
    | nil => simp
    | cons p ps ih => intro f; simp [ih, writeString]
  rw [e, List.nil_append, readToString_eq h, Nat.min_eq_right hl, List.take_of_length_le hl,
    List.drop_eq_nil_of_le hl]

example : [[0, 10], [255], []].flatten.length ≤ 3 := by decide

/-- C99: lines written by `WriteLine` are read back by `ReadLine` one by one, with their line feeds,
and then the end of the file is reported, if every line has at least two bytes less than the maximum
and no line feed or NUL.  Missing: lines of the maximal length the documentation allows, see
`C99_violated`. -/
theorem C99_lines_partial (lines : List Str) (maxLength : Nat) (hm : maxLength < 2 ^ 31)
    (hp : 2 ≤ maxLength) (hl : ∀ l ∈ lines, l.length + 2 ≤ maxLength ∧ ∀ c ∈ l, c ≠ 10 ∧ c ≠ 0)
    (read : List Str) :
    Lines maxLength (lines.foldl writeLine []) read ↔ read = lines.map (· ++ [10]) := by
  have e : ∀ (ps : List Str) (f : Str),
      ps.foldl writeLine f = f ++ (ps.map (· ++ [10])).flatten := by
    intro ps
    induction ps with
    | nil => simp
    | cons p ps ih => intro f; simp [ih, writeLine]
  have hL : ∀ ps : List Str, (∀ l ∈ ps, l.length + 2 ≤ maxLength ∧ ∀ c ∈ l, c ≠ 10 ∧ c ≠ 0) →
      Lines maxLength (ps.map (· ++ [10])).flatten (ps.map (· ++ [10])) := by
    intro ps
    induction ps with
    | nil =>
      intro _
      refine Lines.done ?_
      unfold readLine fgets
      rw [toInt32_small hm, if_neg (by omega), if_neg (by omega)]
      rfl
    | cons p ps ih =>
      intro h
      have hp := h p (List.mem_cons_self ..)
      refine Lines.more (rest' := (ps.map (· ++ [10])).flatten) ?_
        (ih (fun l hl => h l (List.mem_cons_of_mem _ hl)))
      rw [List.map_cons, List.flatten_cons, List.append_assoc]
      exact readLine_line hm hp.1 hp.2
  rw [e, List.nil_append]
  constructor
  · intro h
    exact lines_unique h (hL lines hl)
  · rintro rfl
    exact hL lines hl

example : ∀ l ∈ [[97, 98], [], [99]], l.length + 2 ≤ 4 ∧ ∀ c ∈ l, c ≠ 10 ∧ c ≠ 0 := by decide

/-- C99: a line that has with its line feed exactly the `max_length` bytes allowed by the
documentation of `ReadLine` is read as two lines, for every maximum and every such line. -/
theorem C99_violated (l : Str) (maxLength : Nat) (hm : maxLength < 2 ^ 31)
    (h : l.length + 1 = maxLength) (h1 : l ≠ []) (hc : ∀ c ∈ l, c ≠ 10 ∧ c ≠ 0) :
    Lines maxLength (writeLine [] l) [l, [10]] := by
  have hl : 0 < l.length := List.length_pos_iff.2 h1
  refine Lines.more (rest' := [10]) ?_ (Lines.more (rest' := []) ?_ (Lines.done ?_))
  · simpa [writeLine] using readLine_long (rest := [10]) hm h h1 hc
  · exact readLine_line (l := []) hm (by simp; omega) (by simp)
  · unfold readLine fgets
    rw [toInt32_small hm, if_neg (by omega), if_neg (by omega)]
    rfl

example : Lines 3 (writeLine [] [97, 98]) [[97, 98], [10]] :=
  C99_violated _ _ (by decide) rfl (by decide) (by decide)

/-- C99: a line with a NUL is read without what comes from the NUL on, and without its line feed; the bytes are
lost, as the next line is read after it. -/
theorem C99_nul_violated (a b rest : Str) (maxLength : Nat) (hm : maxLength < 2 ^ 31)
    (h : a.length + b.length + 3 ≤ maxLength) (ha : ∀ c ∈ a, c ≠ 10 ∧ c ≠ 0) (hb : ∀ c ∈ b, c ≠ 10) :
    readLine (writeLine [] (a ++ 0 :: b) ++ rest) maxLength = some (a, rest) := by
  have hc : ∀ c ∈ a ++ 0 :: b, c ≠ 10 := by
    intro c hc
    rcases List.mem_append.1 hc with hc | hc
    · exact (ha c hc).1
    · rcases List.mem_cons.1 hc with rfl | hc
      · decide
      · exact hb c hc
  have e : writeLine [] (a ++ 0 :: b) ++ rest = (a ++ 0 :: b) ++ 10 :: rest := by simp [writeLine]
  rw [e]
  unfold readLine fgets
  rw [toInt32_small hm, if_neg (by omega), if_neg (by omega), if_neg (by simp),
    Int.toNat_natCast, fgetsAux_line _ _ _ hc (by simp; omega)]
  have : cString (a ++ 0 :: b ++ [10]) = a := by
    have := cString_eq (fun c h => (ha c h).2)
    unfold cString at this ⊢
    rw [List.append_assoc, List.takeWhile_append, this]
    simp
  simp only [Option.map_some, this]

example : readLine (writeLine [] [97, 0, 98] ++ [99, 10]) 9 = some ([97], [99, 10]) :=
  C99_nul_violated [97] [98] [99, 10] 9 (by decide) (by decide) (by decide) (by decide)

/-- C99: `ReadLine` loses no byte of a file without NUL: what it returns is the start of the file, it
is not longer than the maximum, and after it comes what is read next. -/
theorem C99_read_line (file line rest : Str) (maxLength : Nat) (hf : ∀ c ∈ file, c ≠ 0)
    (hm : maxLength < 2 ^ 31) (h : readLine file maxLength = some (line, rest)) :
    line ++ rest = file ∧ line.length < maxLength := by
  have aux : ∀ (n : Nat) (f : Str), (fgetsAux n f).1 ++ (fgetsAux n f).2 = f ∧
      (fgetsAux n f).1.length ≤ n := by
    intro n
    induction n with
    | zero => intro f; simp [fgetsAux]
    | succ n ih =>
      intro f
      cases f with
      | nil => simp [fgetsAux]
      | cons c f =>
        by_cases hc : c = 10
        · simp [fgetsAux, hc]
        · have := ih f
          simp [fgetsAux, hc, this.1, this.2]
  unfold readLine fgets at h
  rw [toInt32_small hm] at h
  by_cases h0 : (maxLength : Int) ≤ 0
  · rw [if_pos h0] at h; cases h
  rw [if_neg h0] at h
  by_cases h1 : (maxLength : Int) = 1
  · rw [if_pos h1] at h
    simp [cString] at h
    obtain ⟨rfl, rfl⟩ := h
    exact ⟨rfl, by simp; omega⟩
  · rw [if_neg h1] at h
    by_cases h2 : file = []
    · simp [h2] at h
    · rw [if_neg h2] at h
      have hx := aux ((maxLength : Int).toNat - 1) file
      generalize fgetsAux ((maxLength : Int).toNat - 1) file = r at h hx
      simp only [Option.map_some, Option.some.injEq, Prod.mk.injEq] at h
      rw [cString_eq (fun c hc => hf c (hx.1 ▸ List.mem_append_left _ hc))] at h
      obtain ⟨rfl, rfl⟩ := h
      exact ⟨hx.1, by have := hx.2; omega⟩

example : readLine [97, 10, 98] 5 = some ([97, 10], [98]) := by decide

end Nisaba.Props.PortFile
