import Verif.Lemmas.Letters
import Verif.Props.PhonInv
/-!
# C122: Latin letters and the letters of English
-/
namespace Nisaba.Props
open Nisaba.PhonInv

set_option maxRecDepth 100000

/-- The profile has a value in every aspect of the inventory, and only values of that aspect. -/
def WellFormed (p : PhonInv.Profile) : Prop :=
  valid roots p = true ∧ ∀ s ∈ p, s ≠ []

/-- C122: a symbol that takes its features from other symbols has exactly the union of their
features. -/
theorem C122_union (p : PhonInv.Profile) (hp : WellFormed p) {ss : List PhonInv.Profile} (hne : ss ≠ [])
    (hs : ∀ s ∈ ss, WellFormed s) :
    ∀ f, f ∈ features (updateFromSymbols p ss) ↔ ∃ s ∈ ss, f ∈ features s :=
  fun _ => mem_updateFromSymbols hne
    (fun s h => by rw [valid_length (hs s h).1, valid_length hp.1]) (fun s h => (hs s h).2)

/-- C122: and its similarity with each of them, in both directions, is 1. -/
theorem C122_compatible (p : PhonInv.Profile) (hp : WellFormed p) {ss : List PhonInv.Profile}
    (hs : ∀ s ∈ ss, WellFormed s) {s : PhonInv.Profile} (hm : s ∈ ss) :
    similarity (updateFromSymbols p ss) s = .ok 1 ∧ similarity s (updateFromSymbols p ss) = .ok 1 := by
  have hne : ss ≠ [] := List.ne_nil_of_mem hm
  have hu := C122_union p hp hne hs
  have hvs := valid_iff.1 (hs s hm).1
  have hvu : valid roots (updateFromSymbols p ss) = true := by
    refine valid_iff.2 ⟨by rw [updateFromSymbols_length, valid_length hp.1], ?_⟩
    intro a t r ht hr v hv
    obtain ⟨s', hs', hf⟩ := (hu (a, v)).1 (mem_features.2 ⟨t, ht, hv⟩)
    obtain ⟨t', ht', hv'⟩ := mem_features.1 hf
    exact (valid_iff.1 (hs s' hs').1).2 a t' r ht' hr v hv'
  have shared : ∀ (a : Nat) x y, (updateFromSymbols p ss)[a]? = some x → s[a]? = some y →
      ∃ v, v ∈ x ∧ v ∈ y := by
    intro a x y hx hy
    obtain ⟨w, hw⟩ := List.exists_mem_of_ne_nil _ ((hs s hm).2 y (List.mem_of_getElem? hy))
    obtain ⟨x', hx', hw'⟩ := mem_features.1 ((hu (a, w)).2 ⟨s, hm, mem_features.2 ⟨y, hy, hw⟩⟩)
    rw [hx] at hx'
    cases hx'
    exact ⟨w, hw', hw⟩
  have one : (1 : Rat) - ((0 : Nat) : Rat) / 94 = 1 := by decide +kernel
  rw [similarity_eq hvu (hs s hm).1, similarity_eq (hs s hm).1 hvu, natTotal_shared _ _ _ shared,
    natTotal_shared _ _ _ (fun a x y hx hy => by
      obtain ⟨v, h1, h2⟩ := shared a y x hy hx
      exact ⟨v, h2, h1⟩), one]
  exact ⟨rfl, rfl⟩

/-! ## English -/

/-- The sounds of the letters of English, in IPA, in the words of the comments in en.py: man, mane,
mar, mare and so on. -/
def sounds : List (Str × Str) := [
  (a!"a", a!"æeɪɑɛə"), (a!"b", a!"b"), (a!"c", a!"sk"), (a!"d", a!"d"), (a!"e", a!"ɛiɜɪə"),
  (a!"f", a!"f"), (a!"g", a!"ɡdʒ"), (a!"h", a!"h"), (a!"i", a!"ɪaɜə"), (a!"j", a!"dʒjh"),
  (a!"k", a!"k"), (a!"l", a!"l"), (a!"m", a!"m"), (a!"n", a!"n"), (a!"o", a!"ɒoʊɔ"), (a!"p", a!"p"),
  (a!"q", a!"k"), (a!"r", a!"r"), (a!"s", a!"szʃʒ"), (a!"t", a!"tʃʒ"), (a!"u", a!"ʌʊuə"),
  (a!"v", a!"v"), (a!"w", a!"w"), (a!"x", a!"ksɡzʒʃ"), (a!"y", a!"jɪaɜə"), (a!"z", a!"zʒts")]

/-- The phonemes with one of the characters as IPA. -/
def soundsOf (inv : List Phoneme) (cs : Str) : List Phoneme := inv.filter (fun p => p.ipa.all cs.contains)

namespace LettersAux

def sameFeatures (x : List Fe) (ys : List (List Fe)) : Bool :=
  x.all (fun f => ys.any (fun y => y.any (fun g => Nat.beq f.1 g.1 && Nat.beq f.2 g.2))) &&
  ys.all (fun y => y.all (fun f => x.any (fun g => Nat.beq f.1 g.1 && Nat.beq f.2 g.2)))

theorem same_of {x : List Fe} {ys : List (List Fe)} (h : sameFeatures x ys = true) :
    ∀ f, f ∈ x ↔ ∃ y ∈ ys, f ∈ y := by
  simp only [sameFeatures, Bool.and_eq_true, List.all_eq_true, List.any_eq_true] at h
  have eq : ∀ {f g : Fe}, Nat.beq f.1 g.1 = true → Nat.beq f.2 g.2 = true → f = g := by
    intro f g h1 h2
    exact Prod.ext (Nat.eq_of_beq_eq_true h1) (Nat.eq_of_beq_eq_true h2)
  intro f
  constructor
  · intro hf
    obtain ⟨y, hy, g, hg, h1, h2⟩ := h.1 f hf
    exact ⟨y, hy, eq h1 h2 ▸ hg⟩
  · rintro ⟨y, hy, hf⟩
    obtain ⟨g, hg, h1, h2⟩ := h.2 y hy f hf
    exact eq h1 h2 ▸ hg

def letterCheck (e : Str × Str) : Bool :=
  (soundsOf table e.2).length == e.2.length &&
  englishSymbols.any (fun low => englishSymbols.any (fun up =>
    NT.seq low.ipa e.1 && NT.seq low.alias e.1 && NT.seq up.ipa (upperText e.1) &&
      NT.seq up.alias (upperAlias e.1) &&
    [low, up].all (fun l => sameFeatures (features l.desc)
      ((soundsOf table e.2).map (fun p => features p.desc)) &&
      (soundsOf table e.2).all (fun p => Nat.beq (natTotal quarters l.desc p.desc) 0))))

theorem letters : ∀ e ∈ sounds, letterCheck e = true := by decide +kernel

end LettersAux
open LettersAux

/-- C122: a letter of English, in both cases, has exactly the features of its sounds together, and
its similarity with each of them is 1. -/
theorem C122_english : ∃ inv gr, phonemes = some inv ∧ english = some gr ∧
    ∀ e ∈ sounds, (soundsOf inv e.2).length = e.2.length ∧
    ∃ low ∈ gr.symbols, ∃ up ∈ gr.symbols, low.ipa = e.1 ∧ up.ipa = upperText e.1 ∧
      low.alias ∈ gr.lower ∧ up.alias ∈ gr.upper ∧
      ∀ l ∈ [low, up],
        (∀ f, f ∈ features l.desc ↔ ∃ p ∈ soundsOf inv e.2, f ∈ features p.desc) ∧
        ∀ p ∈ soundsOf inv e.2, similarity l.desc p.desc = .ok 1 := by
  refine ⟨table, englishTable, phonemes_eq, english_eq, ?_⟩
  intro e he
  have h := letters e he
  have hl : ∀ e ∈ sounds, e.1 ∈ englishTable.lower ∧ upperAlias e.1 ∈ englishTable.upper := by
    decide +kernel
  simp only [letterCheck, Bool.and_eq_true, beq_iff_eq, List.any_eq_true, seq_iff] at h
  obtain ⟨h1, low, hlow, up, hup, ⟨⟨⟨h2, h3⟩, h4⟩, h5⟩, h6⟩ := h
  refine ⟨h1, low, hlow, up, hup, h2, h4, h3 ▸ (hl e he).1, h5 ▸ (hl e he).2, ?_⟩
  intro l hm
  have h7 := List.all_eq_true.1 h6 l hm
  simp only [Bool.and_eq_true, List.all_eq_true] at h7
  constructor
  · intro f
    rw [same_of h7.1 f]
    simp only [List.mem_map]
    constructor
    · rintro ⟨_, ⟨p, hp, rfl⟩, hf⟩
      exact ⟨p, hp, hf⟩
    · rintro ⟨p, hp, hf⟩
      exact ⟨_, ⟨p, hp, rfl⟩, hf⟩
  · intro p hp
    have hl' : l ∈ englishSymbols := by
      simp only [List.mem_cons, List.not_mem_nil, or_false] at hm
      rcases hm with rfl | rfl <;> assumption
    rw [similarity_eq (english_valid l hl') (table_valid p (List.mem_filter.1 hp).1),
      Nat.eq_of_beq_eq_true (h7.2 p hp)]
    exact congrArg Except.ok (by decide +kernel)

/-! ## Lists -/

/-- The lists of an inventory say what the features say: the letters are those in lower and upper
case, the vowels and consonants are the letters with that class, every letter is one of them, and a
number has `n_a` in every aspect. -/
structure GoodLists (l : Letters) : Prop where
  aliases : (l.symbols.map (·.alias)).Nodup
  texts : (l.symbols.map (·.ipa)).Nodup
  split : ∀ p ∈ l.symbols, (p.alias ∈ l.lower ∨ p.alias ∈ l.upper ∨ p.alias ∈ l.number)
  listed : ∀ a ∈ l.lower ++ l.upper ++ l.number, a ∈ l.symbols.map (·.alias)
  vowel : ∀ p ∈ l.symbols, p.alias ∈ l.vowel ↔ Phf.ph_class.vowel ∈ features p.desc
  consonant : ∀ p ∈ l.symbols, p.alias ∈ l.consonant ↔ Phf.ph_class.consonant ∈ features p.desc
  letter : ∀ a ∈ l.lower ++ l.upper, a ∈ l.vowel ∨ a ∈ l.consonant
  number : ∀ p ∈ l.symbols, p.alias ∈ l.number → p.desc = notApplicable

/-- C122: the lists of the Latin letters and of the letters of English agree with the features. -/
theorem C122_lists : ∃ la en, latin = some la ∧ english = some en ∧ GoodLists la ∧ GoodLists en := by
  refine ⟨latinTable, englishTable, latin_eq, english_eq, ?_, ?_⟩
  · constructor <;> decide +kernel
  · constructor <;> decide +kernel

/-- C122: upper and lower case have the same descriptive features. -/
theorem C122_case : ∃ la en, latin = some la ∧ english = some en ∧ ∀ l ∈ [la, en],
    ∀ p ∈ l.symbols, p.alias ∈ l.lower → ∃ q ∈ l.symbols, q.alias ∈ l.upper ∧
      q.ipa = p.ipa.map (· - 32) ∧ ∀ f, f ∈ features q.desc ↔ f ∈ features p.desc := by
  refine ⟨latinTable, englishTable, latin_eq, english_eq, ?_⟩
  have h : ∀ l ∈ [latinTable, englishTable], ∀ p ∈ l.symbols, p.alias ∈ l.lower →
      ∃ q ∈ l.symbols, q.alias ∈ l.upper ∧ q.ipa = p.ipa.map (· - 32) ∧
        sameFeatures (features q.desc) [features p.desc] = true := by
    decide +kernel
  intro l hl p hp ha
  obtain ⟨q, hq, h1, h2, h3⟩ := h l hl p hp ha
  refine ⟨q, hq, h1, h2, fun f => ?_⟩
  rw [same_of h3 f]
  simp

/-- C122: the Latin letters whose similarity with the phoneme of the same character in IPA is 1.
Among the vowels only o is missing: it has the heights of an open vowel. -/
theorem C122_latin_ipa : ∃ inv la, phonemes = some inv ∧ latin = some la ∧
    ∀ l ∈ la.symbols, l.alias ∈ la.lower → ∀ p ∈ inv, p.ipa = l.ipa →
      (similarity l.desc p.desc = .ok 1 ↔ ∃ c ∈ a!"abdefhiklmnpstuvwxz", l.ipa = [c]) := by
  refine ⟨table, latinTable, phonemes_eq, latin_eq, ?_⟩
  have h : ∀ l ∈ latinTable.symbols, l.alias ∈ latinTable.lower → ∀ p ∈ table,
      NT.seq p.ipa l.ipa = true → ((natTotal quarters l.desc p.desc = 0) ↔
        ∃ c ∈ a!"abdefhiklmnpstuvwxz", l.ipa = [c]) := by
    decide +kernel
  intro l hl ha p hp e
  rw [similarity_eq (latin_valid l hl) (table_valid p hp), ← h l hl ha p hp (seq_iff.2 e)]
  rw [← PhonInvAux.sim_bounds.2.2.2]
  constructor
  · intro h; injection h
  · intro h; rw [h]

/-! ## Examples -/

example : ∃ inv, phonemes = some inv ∧ ∀ p ∈ inv, WellFormed p.desc := by
  refine ⟨table, phonemes_eq, ?_⟩
  intro p hp
  refine ⟨table_valid p hp, ?_⟩
  have : ∀ p ∈ table, ∀ s ∈ p.desc, s ≠ [] := by decide +kernel
  exact this p hp

/-- The letter y is a consonant and a vowel. -/
example : ∃ en, english = some en ∧ a!"y" ∈ en.vowel ∧ a!"y" ∈ en.consonant :=
  ⟨englishTable, english_eq, by decide +kernel, by decide +kernel⟩

end Nisaba.Props
