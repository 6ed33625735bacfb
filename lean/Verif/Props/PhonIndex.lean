import Verif.Lemmas.PhonIndex
/-!
# C114: indices of phonemes
-/
namespace Nisaba.Props
open Nisaba Nisaba.Inv Nisaba.PhonIndex

/-- No phoneme and no supplement is named like the methods that keep and read the indices. -/
def VisibleNames (phons : List Phon) (os : List PhonIndex.Op) : Prop :=
  ∀ k ∈ ["_add_to_dicts", "index_lookup", "lookup"],
    (∀ y ∈ phons, y.alias ≠ k) ∧ ∀ i n, PhonIndex.Op.suppl i k n ∉ os

private theorem lookup_eq {phons : List Phon} {langs : List Nat} {os : List PhonIndex.Op}
    (hv : VisibleNames phons os) {s : PhonInv} (hs : s ∈ ((State.new phons langs).run os).invs)
    (n : Nat) :
    s.indexLookup n =
      .ok (((entries s.lang s.phonemes).find? (fun e => e.1 == n)).map (·.2)) := by
  have hk : ∀ k ∈ ["_add_to_dicts", "index_lookup", "lookup"], s.inv.hasKey k = false := by
    intro k hk
    refine (run_keys phons langs os k (hv k hk).1 (hv k hk).2 ?_).2 s hs
    revert k
    decide
  have h1 := hk "_add_to_dicts" (by simp)
  have h2 := hk "index_lookup" (by simp)
  have h3 := hk "lookup" (by simp)
  simp [PhonInv.indexLookup, Inventory.method, h2, h3, (run_good phons langs os s hs).dict h1]

/-- Whatever was passed to the inventories before, `index_lookup` gives the phoneme at place `k` (from
0) exactly for the index 3000000 + 100 · (index of the language) + k + 1, and the unknown symbol for
every other number. -/
theorem C114_lookup (phons : List Phon) (langs : List Nat) (os : List PhonIndex.Op)
    (hv : VisibleNames phons os) (s : PhonInv) (hs : s ∈ ((State.new phons langs).run os).invs)
    (n : Nat) :
    (∀ p, s.indexLookup n = .ok (some p) ↔
      ∃ k, s.phonemes[k]? = some p ∧ n = 3000000 + 100 * s.lang + k + 1) ∧
    (s.indexLookup n = .ok none ↔
      ¬ ∃ k, k < s.phonemes.length ∧ n = 3000000 + 100 * s.lang + k + 1) ∧
    s.phonemes.Nodup := by
  rw [lookup_eq hv hs]
  refine ⟨fun p => ?_, ?_, (run_good phons langs os s hs).nodup⟩
  · rw [Except.ok.injEq, entries_find]; rfl
  · rw [Except.ok.injEq, Option.eq_none_iff_forall_ne_some]
    simp only [ne_eq, entries_find, idx]
    constructor
    · rintro h ⟨k, hk, hn⟩
      exact h _ ⟨k, List.getElem?_eq_getElem hk, hn⟩
    · rintro h p ⟨k, hk, hn⟩
      exact h ⟨k, (List.getElem?_eq_some_iff.1 hk).1, hn⟩

/-- If no phoneme object is passed twice, to whatever inventories, then the index and the language that
a phoneme carries are those of its place, so that looking up its index in its inventory finds it. -/
theorem C114_own_index_partial (phons : List Phon) (langs : List Nat) (os : List PhonIndex.Op)
    (hv : VisibleNames phons os) (hn : (passed os).Nodup)
    (s : PhonInv) (hs : s ∈ ((State.new phons langs).run os).invs)
    (k p : Nat) (hk : s.phonemes[k]? = some p) :
    ∃ y, ((State.new phons langs).run os).phons[p]? = some y ∧ y.lang = s.lang ∧
      y.index = 3000000 + 100 * s.lang + k + 1 ∧ s.indexLookup y.index = .ok (some p) := by
  obtain ⟨_, y, hy, hi, hl⟩ := run_own phons langs os hn s hs k p hk
  refine ⟨y, hy, hl, hi, ?_⟩
  exact ((C114_lookup phons langs os hv s hs y.index).1 p).2 ⟨k, hk, hi⟩

/-- Two inventories, of languages with indices `L` and `L + d + 1`, have an index in common exactly if
the first has more than `100 · (d + 1)` phonemes and the second has one. -/
theorem C114_shared (phons : List Phon) (langs : List Nat) (os : List PhonIndex.Op)
    (hv : VisibleNames phons os) (s t : PhonInv)
    (hs : s ∈ ((State.new phons langs).run os).invs) (ht : t ∈ ((State.new phons langs).run os).invs)
    (hlt : s.lang < t.lang) :
    (∃ n p q, s.indexLookup n = .ok (some p) ∧ t.indexLookup n = .ok (some q)) ↔
      100 * (t.lang - s.lang) < s.phonemes.length ∧ t.phonemes ≠ [] := by
  have hS := fun n => C114_lookup phons langs os hv s hs n
  have hT := fun n => C114_lookup phons langs os hv t ht n
  constructor
  · rintro ⟨n, p, q, hp, hq⟩
    obtain ⟨k, hk, hn⟩ := ((hS n).1 p).1 hp
    obtain ⟨k', hk', hn'⟩ := ((hT n).1 q).1 hq
    have h1 := (List.getElem?_eq_some_iff.1 hk).1
    refine ⟨by omega, ?_⟩
    intro h
    rw [h] at hk'
    simp at hk'
  · rintro ⟨h1, h2⟩
    obtain ⟨q, qs, hq⟩ := List.exists_cons_of_ne_nil h2
    refine ⟨3000000 + 100 * t.lang + 0 + 1, s.phonemes[100 * (t.lang - s.lang)], q, ?_, ?_⟩
    · exact ((hS _).1 _).2 ⟨100 * (t.lang - s.lang), List.getElem?_eq_getElem h1, by omega⟩
    · exact ((hT _).1 _).2 ⟨0, by rw [hq]; rfl, rfl⟩

/-- The reservation of features/language.py:110-124: if no language of the ISO list, with an index
below 8000, has more than 100 phonemes, and the unified inventory has no more than 100100, then
inventories of different languages with indices up to 8000 or equal to 9001 share no index. -/
theorem C114_reserved (phons : List Phon) (langs : List Nat) (os : List PhonIndex.Op)
    (hv : VisibleNames phons os) (hl : ∀ l ∈ langs, l ≤ 8000 ∨ l = 9001)
    (h1 : ∀ s ∈ ((State.new phons langs).run os).invs, s.lang < 8000 → s.phonemes.length ≤ 100)
    (h2 : ∀ s ∈ ((State.new phons langs).run os).invs, s.lang = 8000 → s.phonemes.length ≤ 100100)
    (s t : PhonInv) (hs : s ∈ ((State.new phons langs).run os).invs)
    (ht : t ∈ ((State.new phons langs).run os).invs) (hne : s.lang ≠ t.lang) (n p q : Nat)
    (hp : s.indexLookup n = .ok (some p)) : t.indexLookup n ≠ .ok (some q) := by
  intro hq
  have lang : ∀ s ∈ ((State.new phons langs).run os).invs, s.lang ≤ 8000 ∨ s.lang = 9001 := by
    intro s hs
    apply hl
    have := List.mem_map_of_mem (f := (·.lang)) hs
    rwa [run_langs] at this
  rcases Nat.lt_or_gt_of_ne hne with h | h
  · have := ((C114_shared phons langs os hv s t hs ht h).1 ⟨n, p, q, hp, hq⟩).1
    have := lang s hs; have := lang t ht; have := h1 s hs; have := h2 s hs
    omega
  · have := ((C114_shared phons langs os hv t s ht hs h).1 ⟨n, q, p, hq, hp⟩).1
    have := lang s hs; have := lang t ht; have := h1 t ht; have := h2 t ht
    omega

/-- The index of the grapheme of a character up to U+F4240 is never that of a phoneme. -/
theorem C114_grapheme (phons : List Phon) (langs : List Nat) (os : List PhonIndex.Op)
    (hv : VisibleNames phons os) (s : PhonInv) (hs : s ∈ ((State.new phons langs).run os).invs)
    (c : Nat) (hc : c ≤ 0xF4240) : s.indexLookup (graphemeIndex c) = .ok none := by
  refine ((C114_lookup phons langs os hv s hs _).2.1).2 ?_
  rintro ⟨k, _, hn⟩
  simp only [graphemeIndex, graphemePrefix] at hn
  omega

deriving instance DecidableEq for Except

/-- Three phonemes, as after `Phon(alias=…)`. -/
private def abc : List Phon := [⟨"a", 999999, 8000⟩, ⟨"b", 999999, 8000⟩, ⟨"c", 999999, 8000⟩]

/-- Without the restriction the index of a phoneme is not its own: (1) a phoneme passed again is not
added again but takes the index of the phoneme that comes next; (2) a phoneme passed to a second
inventory takes the index and the language of the second, so that the first does not find it by its
index any more; (3) so does one that the second refuses, because its alias is taken; (4) the grapheme
of U+F4241 has the index of the first phoneme of the language with index 0. -/
theorem C114_own_index_violated :
    (let w := (State.new abc [0]).run [.add 0 0, .add 0 0, .add 0 1]
     w.phons.map (·.index) = [3000002, 3000002, 999999] ∧
     w.invs.map (·.phonemes) = [[0, 1]] ∧ w.invs.map (·.indexLookup 3000002) = [.ok (some 1)]) ∧
    (let w := (State.new abc [0, 5]).run [.add 0 0, .add 1 1, .add 1 0]
     w.phons.map (·.index) = [3000502, 3000501, 999999] ∧ w.phons.map (·.lang) = [5, 5, 8000] ∧
     w.invs.map (·.phonemes) = [[0], [1, 0]] ∧
     w.invs.map (·.indexLookup 3000502) = [.ok none, .ok (some 0)]) ∧
    (let w := (State.new [⟨"a", 999999, 8000⟩, ⟨"a", 999999, 8000⟩] [0, 5]).run
        [.add 0 0, .add 1 1, .add 1 0]
     w.phons.map (·.index) = [3000502, 3000501] ∧ w.invs.map (·.phonemes) = [[0], [1]] ∧
     w.invs.map (·.indexLookup 3000502) = [.ok none, .ok none]) ∧
    (let w := (State.new abc [0]).run [.add 0 0]
     w.invs.map (·.indexLookup (graphemeIndex 0xF4241)) = [.ok (some 0)]) := by
  refine ⟨?_, ?_, ?_, ?_⟩ <;> decide +kernel

/-- A case that meets the hypotheses: three phonemes in two inventories with a named list. -/
example :
    let os : List PhonIndex.Op := [.add 0 0, .add 1 1, .suppl 0 "vowel" 3, .add 0 2]
    VisibleNames abc os ∧ (passed os).Nodup ∧
      ((State.new abc [7, 8]).run os).invs.map (·.phonemes) = [[0, 2], [1]] ∧
      ((State.new abc [7, 8]).run os).phons.map (·.index) = [3000701, 3000801, 3000702] := by
  refine ⟨?_, by decide, by decide +kernel, by decide +kernel⟩
  intro k hk
  simp only [List.mem_cons, List.not_mem_nil, or_false] at hk
  rcases hk with rfl | rfl | rfl <;> exact ⟨by decide, by intro i n; simp⟩

/-- A name that hides a method is not met by the hypothesis, and then the lookup fails. -/
example : ((State.new [⟨"lookup", 0, 0⟩] [0]).run [.add 0 0]).invs.map (·.indexLookup 3000001) =
    [.error .typeError] := by decide +kernel

/-- `n` phonemes with different aliases. -/
private def many (n : Nat) : List Phon :=
  (List.range n).map fun i => ⟨String.singleton (Char.ofNat (0x4E00 + i)), 0, 0⟩

/-- Nothing keeps an inventory from having more than 100 phonemes: the 101st phoneme of one language
and the first of the next share an index. -/
theorem C114_reserved_violated :
    let w := (State.new (many 102) [7, 8]).run (.add 1 101 :: (List.range 101).map (.add 0))
    w.invs.map (·.indexLookup 3000801) = [.ok (some 100), .ok (some 101)] := by
  decide +kernel

end Nisaba.Props
