import Verif.Lemmas.SymTab
import Verif.Props.Grm2
import Verif.Model.NtFst
/-!
# Theorems on the symbol tables of symbols.cc (C136)
-/
namespace Nisaba.Props

open Nisaba.SymTab Nisaba.Grm2

/-- The value of a hexadecimal digit in lower case; 16 if it is none. -/
def lowerHex (d : Nat) : Nat :=
  if 48 ≤ d ∧ d ≤ 57 then d - 48 else if 97 ≤ d ∧ d ≤ 102 then d - 87 else 16

/-- `s` is `0x` and digits of the value `c`, the first of them the highest. -/
def IsHex (s : Str) (digits c : Nat) : Prop :=
  ∃ ds, s = a!"0x" ++ ds ∧ ds.length = digits ∧ (∀ d ∈ ds, lowerHex d < 16) ∧
    ds.foldl (fun n d => 16 * n + lowerHex d) 0 = c

theorem lowerHex_digit {d : Nat} (h : d < 16) : lowerHex (hexDigit d) = d := by
  unfold lowerHex hexDigit
  by_cases h1 : d < 10
  · rw [if_pos h1, if_pos (by omega)]; omega
  · rw [if_neg h1, if_neg (by omega), if_pos (by omega)]; omega

theorem isHex_hex2 {c : Nat} (h : c < 256) : IsHex (hex2 c) 2 c := by
  have h1 := lowerHex_digit (show c / 16 < 16 by omega)
  have h2 := lowerHex_digit (show c % 16 < 16 by omega)
  refine ⟨[hexDigit (c / 16), hexDigit (c % 16)], rfl, rfl, ?_, ?_⟩
  · intro d hd
    simp only [List.mem_cons, List.not_mem_nil, or_false] at hd
    rcases hd with rfl | rfl <;> omega
  · simp only [List.foldl_cons, List.foldl_nil, h1, h2]; omega

theorem isHex_hex4 {c : Nat} (h : c < 65536) : IsHex (hex4 c) 4 c := by
  have h1 := lowerHex_digit (show c / 4096 < 16 by omega)
  have h2 := lowerHex_digit (show c / 256 % 16 < 16 by omega)
  have h3 := lowerHex_digit (show c / 16 % 16 < 16 by omega)
  have h4 := lowerHex_digit (show c % 16 < 16 by omega)
  refine ⟨[hexDigit (c / 4096), hexDigit (c / 256 % 16), hexDigit (c / 16 % 16), hexDigit (c % 16)],
    rfl, rfl, ?_, ?_⟩
  · intro d hd
    simp only [List.mem_cons, List.not_mem_nil, or_false] at hd
    rcases hd with rfl | rfl | rfl | rfl <;> omega
  · simp only [List.foldl_cons, List.foldl_nil, h1, h2, h3, h4]; omega

theorem byte_good (calls : List Call) : Good byteSymbol 256 (byteTable calls) := by
  rw [byteTable_eq]
  have hg := Good.generate (n := 256) (text := byteSymbol) (fun a b ha hb => C73_byte a b ha hb)
  exact new_good hg _

theorem utf8_good (calls : List Call) : Good utf8Symbol 65536 (utf8Table calls) := by
  rw [utf8Table_eq]
  have hg := Good.generate (n := 65536) (text := utf8Symbol) (fun a b ha hb => C73_utf8 a b ha hb)
  exact new_good hg _

/-- C136: after any calls the byte table has every byte, under the character if it is visible and else under
its hexadecimal number. -/
theorem C136_byte (calls : List Call) (c : Nat) (hc : c < 256) : ∃ s,
    (byteTable calls).symbol c = some s ∧ (byteTable calls).label s = some c ∧
    (c = 0 → s = a!"<epsilon>") ∧ (32 < c → c < 127 → s = [c]) ∧
    (0 < c → c ≤ 32 ∨ 127 ≤ c → IsHex s 2 c) := by
  refine ⟨byteSymbol c, (byte_good calls).symbol hc, ?_, ?_, ?_, ?_⟩
  · rw [byteTable_eq]
    exact label_mono (new_prefix _)
      ((label_generate (n := 256) (fun a b ha hb => C73_byte a b ha hb) _ _).2 ⟨c, hc, rfl, rfl⟩)
  · rintro rfl; rfl
  · intro h1 h2
    unfold byteSymbol
    rw [if_neg (by omega), if_pos ⟨h1, h2⟩]
  · intro h1 h2
    unfold byteSymbol
    rw [if_neg (by omega), if_neg (by omega)]
    exact isHex_hex2 hc

/-- C136: after any calls the UTF-8 table has every code point below 65536, under its bytes or, if it is a space
or a control character or U+180E, under its hexadecimal number. -/
theorem C136_utf8 (calls : List Call) (c : Nat) (hc : c < 65536) : ∃ s,
    (utf8Table calls).symbol c = some s ∧ (utf8Table calls).label s = some c ∧
    (c = 0 → s = a!"<epsilon>") ∧ (0 < c → ¬ SpaceOrControl c → c ≠ 0x180E → s = Utf8.encodeRaw c) ∧
    (0 < c → SpaceOrControl c ∨ c = 0x180E → IsHex s 4 c) := by
  refine ⟨utf8Symbol c, (utf8_good calls).symbol hc, ?_, ?_, ?_, ?_⟩
  · rw [utf8Table_eq]
    exact label_mono (new_prefix _)
      ((label_generate (n := 65536) (fun a b ha hb => C73_utf8 a b ha hb) _ _).2 ⟨c, hc, rfl, rfl⟩)
  · rintro rfl; rfl
  · intro h1 h2 h3
    unfold utf8Symbol
    rw [if_neg (by omega), if_neg (by
      simp only [isSpaceOrControl, SpaceOrControl, Bool.or_eq_true, decide_eq_true_eq, beq_iff_eq] at h2 ⊢; omega)]
  · intro h1 h2
    unfold utf8Symbol
    rw [if_neg (by omega), if_pos (by
      simp only [isSpaceOrControl, SpaceOrControl, Bool.or_eq_true, decide_eq_true_eq, beq_iff_eq] at h2 ⊢; omega)]
    exact isHex_hex4 hc

example : (byteTable [.addByte a!"A" 300, .getByte, .addByte a!"X" 65]).symbol 65 = some a!"A" := by
  obtain ⟨s, h, _, _, h', _⟩ := C136_byte [.addByte a!"A" 300, .getByte, .addByte a!"X" 65] 65 (by decide)
  rw [h' (by decide) (by decide)] at h
  exact h

/-- C136: a symbol that is in a table keeps its label. -/
theorem C136_keep (calls more : List Call) (s : Str) (l : Int) :
    ((byteTable calls).label s = some l → (byteTable (calls ++ more)).label s = some l) ∧
    ((utf8Table calls).label s = some l → (utf8Table (calls ++ more)).label s = some l) := by
  constructor
  · rw [byteTable_eq, byteTable_eq, List.filterMap_append, play_append]
    exact label_mono (play_prefix _ _)
  · rw [utf8Table_eq, utf8Table_eq, List.filterMap_append, play_append]
    exact label_mono (play_prefix _ _)

theorem mem_toByte {calls : List Call} : none ∈ calls.filterMap toByte ↔ Call.getByte ∈ calls := by
  rw [List.mem_filterMap]
  constructor
  · rintro ⟨c, hc, h⟩
    cases c <;> simp [toByte] at h
    exact hc
  · exact fun h => ⟨_, h, rfl⟩

theorem mem_toUtf8 {calls : List Call} : none ∈ calls.filterMap toUtf8 ↔ Call.getUtf8 ∈ calls := by
  rw [List.mem_filterMap]
  constructor
  · rintro ⟨c, hc, h⟩
    cases c <;> simp [toUtf8] at h
    exact hc
  · exact fun h => ⟨_, h, rfl⟩

theorem byte_snoc {calls : List Call} (made : Call.getByte ∈ calls) (s : Str) (l : Int) :
    byteTable (calls ++ [.addByte s l]) = (byteTable calls).add s l := by
  rw [byteTable_eq, byteTable_eq, List.filterMap_append, play_append]
  generalize generate byteSymbol 256 = g
  obtain ⟨u, hu⟩ := play_made (g := g) _ none (mem_toByte.2 made)
  show (play g _ [some (s, l)]).getD g = _
  rw [hu]; rfl

theorem utf8_snoc {calls : List Call} (made : Call.getUtf8 ∈ calls) (s : Str) (l : Int) :
    utf8Table (calls ++ [.addUtf8 s l]) = (utf8Table calls).add s l := by
  rw [utf8Table_eq, utf8Table_eq, List.filterMap_append, play_append]
  generalize generate utf8Symbol 65536 = g
  obtain ⟨u, hu⟩ := play_made (g := g) _ none (mem_toUtf8.2 made)
  show (play g _ [some (s, l)]).getD g = _
  rw [hu]; rfl

/-- C136: once the byte table was asked for, a new symbol is found under the label it is given, and the label
under it unless the label was taken; the other labels stay. -/
theorem C136_add_byte_partial (calls : List Call) (made : Call.getByte ∈ calls) (s : Str) (l : Int) (hl : l ≠ -1)
    (new : (byteTable calls).label s = none) :
    (byteTable (calls ++ [.addByte s l])).label s = some l ∧
    ((byteTable calls).symbol l = none → (byteTable (calls ++ [.addByte s l])).symbol l = some s) ∧
    ∀ k t, k ≠ l → (byteTable calls).symbol k = some t → (byteTable (calls ++ [.addByte s l])).symbol k = some t := by
  rw [byte_snoc made]
  exact ⟨label_add hl new, (byte_good calls).symbol_add hl new,
    fun k t hk h => symbol_keep hk (byte_good calls).high h⟩

/-- C136: the same of the UTF-8 table. -/
theorem C136_add_utf8_partial (calls : List Call) (made : Call.getUtf8 ∈ calls) (s : Str) (l : Int) (hl : l ≠ -1)
    (new : (utf8Table calls).label s = none) :
    (utf8Table (calls ++ [.addUtf8 s l])).label s = some l ∧
    ((utf8Table calls).symbol l = none → (utf8Table (calls ++ [.addUtf8 s l])).symbol l = some s) ∧
    ∀ k t, k ≠ l → (utf8Table calls).symbol k = some t → (utf8Table (calls ++ [.addUtf8 s l])).symbol k = some t := by
  rw [utf8_snoc made]
  exact ⟨label_add hl new, (utf8_good calls).symbol_add hl new,
    fun k t hk h => symbol_keep hk (utf8_good calls).high h⟩

/-- C136: a table holds its characters and what was added to it, nothing else. -/
theorem C136_only (calls : List Call) (s : Str) (l : Int) :
    ((byteTable calls).label s = some l →
      (∃ c : Nat, c < 256 ∧ (byteTable []).symbol c = some s ∧ l = c) ∨ Call.addByte s l ∈ calls) ∧
    ((utf8Table calls).label s = some l →
      (∃ c : Nat, c < 65536 ∧ (utf8Table []).symbol c = some s ∧ l = c) ∨ Call.addUtf8 s l ∈ calls) := by
  constructor
  · intro h
    rw [byteTable_eq] at h
    rcases new_only _ h with h | h
    · obtain ⟨c, hc, rfl, rfl⟩ := (label_generate (n := 256) (fun a b ha hb => C73_byte a b ha hb) _ _).1 h
      exact .inl ⟨c, hc, (byte_good []).symbol hc, rfl⟩
    · rw [List.mem_filterMap] at h
      obtain ⟨c, hc, h⟩ := h
      cases c <;> simp [toByte] at h
      obtain ⟨rfl, rfl⟩ := h
      exact .inr hc
  · intro h
    rw [utf8Table_eq] at h
    rcases new_only _ h with h | h
    · obtain ⟨c, hc, rfl, rfl⟩ := (label_generate (n := 65536) (fun a b ha hb => C73_utf8 a b ha hb) _ _).1 h
      exact .inl ⟨c, hc, (utf8_good []).symbol hc, rfl⟩
    · rw [List.mem_filterMap] at h
      obtain ⟨c, hc, h⟩ := h
      cases c <;> simp [toUtf8] at h
      obtain ⟨rfl, rfl⟩ := h
      exact .inr hc

/-- C136: the calls to one table do not change the other. -/
theorem C136_apart (calls : List Call) (s : Str) (l : Int) :
    byteTable (calls ++ [.addUtf8 s l]) = byteTable calls ∧ byteTable (calls ++ [.getUtf8]) = byteTable calls ∧
    utf8Table (calls ++ [.addByte s l]) = utf8Table calls ∧ utf8Table (calls ++ [.getByte]) = utf8Table calls := by
  refine ⟨?_, ?_, ?_, ?_⟩
  · rw [byteTable_eq, byteTable_eq, List.filterMap_append, play_append]; rfl
  · rw [byteTable_eq, byteTable_eq, List.filterMap_append, play_append]; rfl
  · rw [utf8Table_eq, utf8Table_eq, List.filterMap_append, play_append]; rfl
  · rw [utf8Table_eq, utf8Table_eq, List.filterMap_append, play_append]; rfl

/-- C136: what is added before a table was asked for is lost: the table is that of a new process. -/
theorem C136_lost (calls : List Call) :
    (Call.getByte ∉ calls → byteTable calls = byteTable []) ∧
    (Call.getUtf8 ∉ calls → utf8Table calls = utf8Table []) := by
  constructor
  · intro h
    rw [byteTable_eq, byteTable_eq, play_unmade _ (fun hm => h (mem_toByte.1 hm))]; rfl
  · intro h
    rw [utf8Table_eq, utf8Table_eq, play_unmade _ (fun hm => h (mem_toUtf8.1 hm))]; rfl

theorem byte_free {s : Str} (h : ∀ c : Nat, c < 256 → s ≠ byteSymbol c) : (byteTable []).label s = none := by
  cases hl : (byteTable []).label s with
  | none => rfl
  | some l =>
    rw [byteTable_eq, List.filterMap_nil, new_nil] at hl
    obtain ⟨c, hc, hs, _⟩ := (label_generate (n := 256) (fun a b ha hb => C73_byte a b ha hb) _ _).1 hl
    exact absurd hs (h c hc)

theorem byte_no_mark : ∀ c : Nat, c < 256 → a!"[x]" ≠ byteSymbol c := by
  intro c _ h
  have := congrArg List.length h
  unfold byteSymbol at this h
  split at this
  · exact absurd this (by decide)
  · split at this <;> simp [hex2] at this

/-- C136 fails: a symbol that was added is not in the table that is got afterwards. -/
theorem C136_add_violated : ∃ s l, l ≠ -1 ∧ (byteTable []).label s = none ∧
    (byteTable [.addByte s l]).label s = none := by
  refine ⟨a!"[x]", 300, by decide, byte_free byte_no_mark, ?_⟩
  rw [(C136_lost [.addByte a!"[x]" 300]).1 (by simp)]
  exact byte_free byte_no_mark

example : (byteTable [.getByte, .addByte a!"[x]" 300]).label a!"[x]" = some 300 := by
  refine (C136_add_byte_partial [.getByte] (by simp) a!"[x]" 300 (by decide) ?_).1
  cases h : (byteTable [.getByte]).label a!"[x]" with
  | none => rfl
  | some l =>
    rcases (C136_only [.getByte] _ _).1 h with ⟨c, hc, hs, _⟩ | h
    · rw [(byte_good []).symbol hc] at hs
      exact absurd (Option.some.inj hs).symm (byte_no_mark c hc)
    · simp at h

end Nisaba.Props
