import Verif.Props.IsoTo
import Verif.Lemmas.FixedTo
/-!
# The fixed rule romanization of Malayalam (C93 – C96)

`Rel.comp asciiAcceptor (fixedRuleFst Data.mlymFixed)` turns keys into ISO 15919, and
`fixedFst Data.mlymFixed Data.mlym R` is the exported grammar `MLYM`, which turns keys into Malayalam
letters; `R` is the NFC grammar of Malayalam.  What keys should give is in Props/FixedKeys.lean.
-/
namespace Nisaba.Props
open WRel Iso Keys

/-- C93: keys have exactly one ISO text if all of them are ASCII input characters, and none
otherwise. -/
theorem C93_iso_unique (s : Str) :
    (Over asciiInput s →
      ∃ y, ∀ y', Rel.comp asciiAcceptor (fixedRuleFst Data.mlymFixed) s y' ↔ y' = y) ∧
    (¬ Over asciiInput s → ∀ y, ¬ Rel.comp asciiAcceptor (fixedRuleFst Data.mlymFixed) s y) := by
  have key := fun {y} => Fixed.iso_iff (s := s) (y := y) Fixed.fixed_nonempty
  refine ⟨fun ho => ⟨_, fun y' => key.trans ⟨fun h => h.2, fun h => ⟨ho, h⟩⟩⟩, fun ho y h => ?_⟩
  exact ho (key.1 h).1

/-- C93: keys that can be converted to Malayalam have exactly one lowest-weight conversion, which is
the one of their ISO text. -/
theorem C93_unambiguous {σ : Nat → Prop} (hσ : Contains σ Data.mlym) {R : Rel}
    (hR : nfcFst Data.mlym σ = some R) {s : Str}
    (h : ∃ z w, fixedFst Data.mlymFixed Data.mlym R s z w) :
    ∃ z w, fixedFst Data.mlymFixed Data.mlym R s z w ∧
      (∀ z' w', fixedFst Data.mlymFixed Data.mlym R s z' w' → z' ≠ z → w < w') ∧
      (∀ z', Best (fixedFst Data.mlymFixed Data.mlym R) s z' ↔ z' = z) ∧
      ∀ y, Rel.comp asciiAcceptor (fixedRuleFst Data.mlymFixed) s y →
        ∀ z', Best (toScript Data.mlym R) y z' ↔ z' = z := by
  obtain ⟨z, w, h⟩ := h
  obtain ⟨ho, hto⟩ := (Fixed.fixed_iff Fixed.fixed_nonempty).1 h
  obtain ⟨z, w, h1, h2, h3⟩ := C92_to_unambiguous Fixed.mlym_mem hσ hR ⟨z, w, hto⟩
  refine ⟨z, w, (Fixed.fixed_iff Fixed.fixed_nonempty).2 ⟨ho, h1⟩, fun z' w' h' => ?_, fun z' => ?_,
    fun y hy z' => ?_⟩
  · exact h2 z' w' ((Fixed.fixed_iff Fixed.fixed_nonempty).1 h').2
  · rw [Fixed.best_iff Fixed.fixed_nonempty ho]; exact h3 z'
  · rw [((Fixed.iso_iff Fixed.fixed_nonempty).1 hy).2]; exact h3 z'

/-- C94: `~` separates what is typed before it from what is typed after it: both sides are turned
into ISO on their own, and `~` itself is in no ISO text. -/
theorem C94_tilde {u v y y₁ y₂ : Str}
    (h : Rel.comp asciiAcceptor (fixedRuleFst Data.mlymFixed) (u ++ 0x7E :: v) y)
    (h₁ : Rel.comp asciiAcceptor (fixedRuleFst Data.mlymFixed) (u ++ [0x7E]) y₁)
    (h₂ : Rel.comp asciiAcceptor (fixedRuleFst Data.mlymFixed) v y₂) :
    y = y₁ ++ y₂ ∧ 0x7E ∉ y := by
  rw [((Fixed.iso_iff Fixed.fixed_nonempty).1 h).2, ((Fixed.iso_iff Fixed.fixed_nonempty).1 h₁).2,
    ((Fixed.iso_iff Fixed.fixed_nonempty).1 h₂).2]
  exact ⟨Fixed.fixed_sep u v, Fixed.fixed_no_sep _⟩

/-- C95, for words without `mO`: the keys of a word, of any length, are turned into its letters and
nothing else.  Missing: `mO`, see `C95_violated`. -/
theorem C95_words_partial {σ : Nat → Prop} (hσ : Contains σ Data.mlym) {R : Rel}
    (hR : nfcFst Data.mlym σ = some R) {l : List (Nat × Str × Str)} (h : Word l)
    (hm : ∀ p ∈ l, p.2.1 ≠ mO) (z : Str) :
    Best (fixedFst Data.mlymFixed Data.mlym R) (keys l) z ↔ z = letters l := by
  have hg := Fixed.good_of_word h hm
  obtain ⟨w, hb⟩ := Fixed.best_word hg
  rw [Fixed.best_iff Fixed.fixed_nonempty (Fixed.over_keys hg)]
  exact Fixed.to_best hσ hR hb (Fixed.nfc_word hg) z

/-- C95 fails for the word `mO`: instead of മോ it gives ം and the letter ഓ. -/
theorem C95_violated : Word [(2, mO, [0xD2E, 0xD4B])] ∧
    ∀ (σ : Nat → Prop) (R : Rel), Contains σ Data.mlym → nfcFst Data.mlym σ = some R →
      ∀ z, Best (fixedFst Data.mlymFixed Data.mlym R) mO z ↔ z = [0xD02, 0xD13] := by
  refine ⟨?_, fun σ R hσ hR z => ?_⟩
  · show (mO, [0xD2E, 0xD4B]) ∈ syllables onsets
    exact row _ (by decide +kernel)
  · have ho : Over asciiInput mO := by
      intro c hc
      simp only [mO, List.mem_cons, List.not_mem_nil, or_false] at hc
      rcases hc with rfl | rfl <;> simp [asciiInput]
    rw [Fixed.best_iff Fixed.fixed_nonempty ho]
    obtain ⟨w, hb⟩ := Fixed.best_mO
    exact Fixed.to_best hσ hR hb (by decide +kernel) z

/-- The letters and signs of Malayalam that `TO_MLYM` can write. -/
def mlymLetters : List Nat :=
  (Data.mlym.vowel ++ Data.mlym.vowelSign ++ Data.mlym.consonant ++ Data.mlym.coda ++
    Data.mlym.deadConsonant ++ Data.mlym.standalone).flatMap Prod.fst

/-- ർ ൿ ഌ ൢ ൡ ൣ ഁ ഽ ഺ ഩ. -/
def untyped : List Nat := [0xD7C, 0xD7F, 0xD0C, 0xD62, 0xD61, 0xD63, 0xD01, 0xD3D, 0xD3A, 0xD29]

/-- C96 fails for ten letters: no keys, however long, give a text with one of them on any path,
though they are letters of the tables. -/
theorem C96_violated : (∀ c ∈ untyped, c ∈ mlymLetters) ∧
    ∀ (σ : Nat → Prop) (R : Rel), Contains σ Data.mlym → nfcFst Data.mlym σ = some R →
      ∀ s z w, fixedFst Data.mlymFixed Data.mlym R s z w → ∀ c ∈ untyped, c ∉ z := by
  constructor
  · intro c hc
    have h : untyped.all (memNat mlymLetters) = true := by decide +kernel
    exact memNat_iff.1 (List.all_eq_true.1 h c hc)
  · intro σ R hσ hR s z w h c hc
    have e : untyped = Fixed.needs.map Prod.fst := by decide +kernel
    rw [e] at hc
    obtain ⟨n, hn, rfl⟩ := List.mem_map.1 hc
    exact Fixed.untypable hσ hR h hn

/-- C96, for the letters other than those of `C96_violated` and ൌ: some keys give a text with the
letter.  Missing: ൌ, an older form of the sign ൗ, of which nothing is shown. -/
theorem C96_typable_partial {σ : Nat → Prop} (hσ : Contains σ Data.mlym) {R : Rel}
    (hR : nfcFst Data.mlym σ = some R) {c : Nat} (hc : c ∈ mlymLetters) (h1 : c ∉ untyped)
    (h2 : c ≠ 0xD4C) :
    ∃ s z, (∀ z', Best (fixedFst Data.mlymFixed Data.mlym R) s z' ↔ z' = z) ∧ c ∈ z := by
  have hall : mlymLetters.all (fun c => memNat (0xD4C :: untyped) c ||
      [0, 1, 2, 3, 4].any fun i => (Fixed.groups.getD i []).any fun p => memNat p.2 c) = true := by
    decide +kernel
  have := List.all_eq_true.1 hall c hc
  rw [Bool.or_eq_true] at this
  rcases this with h | h
  · rcases List.mem_cons.1 (memNat_iff.1 h) with h | h
    · exact absurd h h2
    · exact absurd h h1
  · obtain ⟨i, _, h⟩ := List.any_eq_true.1 h
    obtain ⟨p, hp, h⟩ := List.any_eq_true.1 h
    have hp' := Fixed.mem_groups.1 hp
    refine ⟨keys [(i, p)], letters [(i, p)], C95_words_partial hσ hR (l := [(i, p)]) hp'.1 ?_, ?_⟩
    · intro q hq
      rw [List.mem_singleton.1 hq]
      exact hp'.2
    · simpa [letters] using memNat_iff.1 h

/-! ## Instances -/

namespace FixedKeys
open Nisaba.Fixed

/-- The keys `malayaaLam`, of the word മലയാളം. -/
def malayalam : List (Nat × Str × Str) := [
  (2, [0x6D, 0x61], [0xD2E]), (2, [0x6C, 0x61], [0xD32]), (2, [0x79, 0x61, 0x61], [0xD2F, 0xD3E]),
  (2, [0x4C, 0x61], [0xD33]), (4, [0x6D], [0xD02])]

theorem malayalam_word : Word malayalam :=
  ⟨row (rows := syllables onsets) _ (by decide +kernel), by decide,
   row (rows := syllables onsets) _ (by decide +kernel), by decide,
   row (rows := syllables onsets) _ (by decide +kernel), by decide,
   row (rows := syllables onsets) _ (by decide +kernel), by decide,
   row (rows := finals) _ (by decide +kernel)⟩

/-- C95 and C93 apply to `malayaaLam`. -/
example : ∃ R, nfcFst Data.mlym (sigmaUtf8 Data.mlym) = some R ∧
    Best (fixedFst Data.mlymFixed Data.mlym R)
      [0x6D, 0x61, 0x6C, 0x61, 0x79, 0x61, 0x61, 0x4C, 0x61, 0x6D]
      [0xD2E, 0xD32, 0xD2F, 0xD3E, 0xD33, 0xD02] := by
  have hσ : Contains (sigmaUtf8 Data.mlym) Data.mlym := fun _ h => h
  obtain ⟨R, hR, _⟩ := C06_nfc_total.1 _ mlym_mem _ hσ.writes
  refine ⟨R, hR, (C95_words_partial hσ hR malayalam_word ?_ _).2 rfl⟩
  decide +kernel

/-- C94 applies to `n~ga`, which gives `nga` where `nga` without `~` gives `ṅa`. -/
example : Rel.comp asciiAcceptor (fixedRuleFst Data.mlymFixed) [0x6E, 0x7E, 0x67, 0x61]
      [0x6E, 0x67, 0x61] ∧
    Rel.comp asciiAcceptor (fixedRuleFst Data.mlymFixed) [0x6E, 0x7E] [0x6E] ∧
    Rel.comp asciiAcceptor (fixedRuleFst Data.mlymFixed) [0x67, 0x61] [0x67, 0x61] ∧
    Rel.comp asciiAcceptor (fixedRuleFst Data.mlymFixed) [0x6E, 0x67, 0x61] [0x1E45, 0x61] := by
  simp only [iso_iff fixed_nonempty]
  refine ⟨⟨?_, by decide +kernel⟩, ⟨?_, by decide +kernel⟩, ⟨?_, by decide +kernel⟩,
    ⟨?_, by decide +kernel⟩⟩ <;> intro c hc <;> simp at hc <;> rcases hc with rfl | h <;>
    simp [asciiInput] <;> omega

/-- Letters that C96 covers. -/
example : 0xD7D ∈ mlymLetters ∧ 0xD7D ∉ untyped := by
  constructor
  · exact memNat_iff.1 (by decide +kernel)
  · decide

end FixedKeys

end Nisaba.Props
