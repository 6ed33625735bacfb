import Verif.Data.LettersTable
import Verif.Lemmas.PhonInv
/-!
# Lemmas for the inventories of letters
-/
namespace Nisaba.PhonInv

set_option maxRecDepth 100000

def latinTable : Letters where
  symbols := latinSymbols
  lower := latnVowels ++ latnConsonants
  upper := (latnVowels ++ latnConsonants).map upperAlias
  vowel := latnVowels ++ latnVowels.map upperAlias
  consonant := latnConsonants ++ latnConsonants.map upperAlias
  number := numbers.map (·.2)

def englishTable : Letters where
  symbols := englishSymbols
  lower := enLower
  upper := enLower.map upperAlias
  vowel := enVowels ++ enVowels.map upperAlias
  consonant := enConsonants ++ enConsonants.map upperAlias
  number := numbers.map (·.2)

theorem latin_eq : latin = some latinTable := by decide +kernel

theorem english_eq : english = some englishTable := by
  unfold english
  rw [latin_eq, phonemes_eq]
  decide +kernel

theorem latin_valid : ∀ p ∈ latinSymbols, valid roots p.desc = true := by decide +kernel
theorem english_valid : ∀ p ∈ englishSymbols, valid roots p.desc = true := by decide +kernel

/-- Two profiles share a value in every aspect. -/
def shares : Profile → Profile → Bool
  | s :: p, t :: q => s.any (fun v => t.any (fun w => Nat.beq v w)) && shares p q
  | [], [] => true
  | _, _ => false

theorem natDist_shared {m : List (List Nat)} {s t : List Nat} {v : Nat} (hs : v ∈ s) (ht : v ∈ t) :
    natDist m s t = 0 := by
  have := (natDist_spec m s t).2.1 v hs v ht
  rw [quarter_self] at this
  omega

theorem natTotal_shared : ∀ (ms : List (List (List Nat))) (p q : Profile),
    (∀ (a : Nat) s t, p[a]? = some s → q[a]? = some t → ∃ v, v ∈ s ∧ v ∈ t) → natTotal ms p q = 0
  | [], _, _, _ => by simp [natTotal]
  | _ :: _, [], _, _ => by simp [natTotal]
  | _ :: _, _ :: _, [], _ => by simp [natTotal]
  | m :: ms, s :: p, t :: q, h => by
    obtain ⟨v, hs, ht⟩ := h 0 s t rfl rfl
    have ih := natTotal_shared ms p q (fun a s t h1 h2 => h (a + 1) s t (by simpa using h1)
      (by simpa using h2))
    simp only [natTotal, natDist_shared hs ht, ih]

theorem valid_length : ∀ {rs : List Feature.Val} {p : Profile}, valid rs p = true → p.length = rs.length
  | [], [], _ => rfl
  | _ :: rs, _ :: p, h => by
    simp only [valid, Bool.and_eq_true] at h
    simp [valid_length h.2]
  | [], _ :: _, h => by simp [valid] at h
  | _ :: _, [], h => by simp [valid] at h

theorem valid_iff : ∀ {rs : List Feature.Val} {p : Profile}, valid rs p = true ↔ p.length = rs.length ∧
    ∀ (a : Nat) s r, p[a]? = some s → rs[a]? = some r → ∀ v ∈ s, v ∈ values r
  | [], [] => by simp [valid]
  | [], _ :: _ => by simp [valid]
  | _ :: _, [] => by simp [valid]
  | r :: rs, s :: p => by
    have ih := @valid_iff rs p
    simp only [valid, Bool.and_eq_true, List.all_eq_true, List.contains_iff_mem, ih, List.length_cons,
      Nat.add_right_cancel_iff]
    constructor
    · rintro ⟨h1, h2, h3⟩
      refine ⟨h2, ?_⟩
      intro a s' r' ha hr
      cases a with
      | zero =>
        simp only [List.getElem?_cons_zero, Option.some.injEq] at ha hr
        subst ha; subst hr; exact h1
      | succ a => exact h3 a s' r' (by simpa using ha) (by simpa using hr)
    · rintro ⟨h1, h2⟩
      exact ⟨h2 0 s r rfl rfl, h1, fun a s' r' ha hr => h2 (a + 1) s' r' (by simpa using ha)
        (by simpa using hr)⟩

theorem mem_updateFromSymbols {p : Profile} {ss : List Profile} (hne : ss ≠ [])
    (hl : ∀ s ∈ ss, s.length = p.length) (hv : ∀ s ∈ ss, ∀ x ∈ s, x ≠ []) {f : Fe} :
    f ∈ features (updateFromSymbols p ss) ↔ ∃ s ∈ ss, f ∈ features s := by
  obtain ⟨a, v⟩ := f
  have hmem : (a, v) ∈ ss.flatMap features ↔ ∃ s ∈ ss, (a, v) ∈ features s := by
    simp [List.mem_flatMap]
  have hg : a < p.length → (group (ss.flatMap features) a).isEmpty = false := by
    intro ha
    obtain ⟨s, hs⟩ := List.exists_mem_of_ne_nil _ hne
    have ha' : a < s.length := by rw [hl s hs]; exact ha
    obtain ⟨w, hw⟩ := List.exists_mem_of_ne_nil _ (hv s hs _ (List.getElem_mem ha'))
    cases h : (group (ss.flatMap features) a).isEmpty
    · rfl
    · exact absurd (List.mem_flatMap.2 ⟨s, hs, mem_features.2 ⟨_, List.getElem?_eq_getElem ha', hw⟩⟩)
        (group_empty.1 h w)
  rw [mem_features, updateFromSymbols, update_get, ← hmem]
  constructor
  · rintro ⟨s, hs, hm⟩
    obtain ⟨t, ht, e⟩ := Option.map_eq_some_iff.1 hs
    have ha := (List.getElem?_eq_some_iff.1 ht).1
    rw [hg ha] at e
    simp only [Bool.false_eq_true, if_false] at e
    subst e
    exact mem_group.1 hm
  · intro h
    obtain ⟨s, hs, h'⟩ := hmem.1 h
    obtain ⟨x, hx, _⟩ := mem_features.1 h'
    have ha : a < p.length := by
      rw [← hl s hs]; exact (List.getElem?_eq_some_iff.1 hx).1
    refine ⟨group (ss.flatMap features) a, ?_, mem_group.2 h⟩
    rw [List.getElem?_eq_getElem ha]
    simp [hg ha]

theorem updateFromSymbols_length (p : Profile) (ss : List Profile) :
    (updateFromSymbols p ss).length = p.length := length_update _ _

end Nisaba.PhonInv
