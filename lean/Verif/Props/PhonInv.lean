import Verif.Lemmas.PhonInv
/-!
# C121: the universal phonemes
-/
namespace Nisaba.Props
open Nisaba.PhonInv
open Nisaba.Feature (CompareErr)

set_option maxRecDepth 100000

/-! ## Updates -/

/-- The aspect has exactly the values that the features give. -/
def Exactly (p : PhonInv.Profile) (a : Nat) (fs : List Fe) : Prop :=
  ∃ s, p[a]? = some s ∧ ∀ v, v ∈ s ↔ (a, v) ∈ fs

/-- C121: for all tables of phonemes and updates, a phoneme has in each aspect exactly the values of
the last update that names both the phoneme and the aspect. -/
theorem C121_last_update {vs cs : List (Str × Str × Str)} {pre post : List (List Str × List Fe)}
    {targets : List Str} {fs : List Fe} {inv : List Phoneme}
    (h : inventory vs cs (pre ++ (targets, fs) :: post) = some inv) {ph : Phoneme} (hph : ph ∈ inv)
    (ht : ph.alias ∈ targets) {a v : Nat} (ha : a < roots.length) (hv : (a, v) ∈ fs)
    (hpost : ∀ op ∈ post, ph.alias ∈ op.1 → ∀ v, (a, v) ∉ op.2) :
    Exactly ph.desc a fs := by
  have e := loops_eq _ h
  rw [e] at hph
  obtain ⟨q, hq, rfl⟩ := List.mem_map.1 hph
  have hl : q.desc.length = roots.length := by
    rcases mem_addPhonemes _ _ hq with h | h
    · cases h
    · rcases List.mem_append.1 h with h | h
      all_goals
        obtain ⟨row, _, rfl⟩ := List.mem_map.1 h
        simp only [phon, addFeatures, addFrom_length, newProfile, buildFrom_length]
  refine ⟨_, applyAll_last q.desc (a := a) (op := (targets, fs)) ⟨ht, v, hv⟩ ?_ (by omega), ?_⟩
  · rintro o ho ⟨h1, w, h2⟩
    exact hpost o ho h1 w h2
  · intro w; exact mem_group

/-- C121: an aspect that no update names for the phoneme keeps what it was given at first: the values
of the profile of vowels or consonants, or `any`. -/
theorem C121_default {vs cs : List (Str × Str × Str)} {ops : List (List Str × List Fe)}
    {inv : List Phoneme} (h : inventory vs cs ops = some inv) {ph : Phoneme} (hph : ph ∈ inv) {a : Nat}
    (hno : ∀ op ∈ ops, ph.alias ∈ op.1 → ∀ v, (a, v) ∉ op.2) :
    ((ph.ipa, ph.alias, ph.name) ∈ vs ∧ ph.desc[a]? = (newProfile Phf.vowel)[a]?) ∨
    ((ph.ipa, ph.alias, ph.name) ∈ cs ∧ ph.desc[a]? = (newProfile Phf.consonant)[a]?) := by
  have e := loops_eq _ h
  rw [e] at hph
  obtain ⟨q, hq, rfl⟩ := List.mem_map.1 hph
  have hu : (applyAll q.alias ops q.desc)[a]? = q.desc[a]? := by
    apply applyAll_untouched
    rintro op ho ⟨h1, w, h2⟩
    exact hno op ho h1 w h2
  simp only [hu]
  rcases mem_addPhonemes _ _ hq with h | h
  · cases h
  · rcases List.mem_append.1 h with h | h
    · left
      obtain ⟨row, hr, rfl⟩ := List.mem_map.1 h
      refine ⟨hr, ?_⟩
      have : addFeatures (newProfile []) (features (newProfile Phf.vowel)) = newProfile Phf.vowel := by
        decide +kernel
      simp only [phon, this]
    · right
      obtain ⟨row, hr, rfl⟩ := List.mem_map.1 h
      refine ⟨hr, ?_⟩
      have : addFeatures (newProfile []) (features (newProfile Phf.consonant)) =
          newProfile Phf.consonant := by decide +kernel
      simp only [phon, this]

/-! ## Names -/

/-- The words of a name, without soft hyphens. -/
def nameWords (name : Str) : List Str :=
  ((name.filter (fun c => c != 173)).foldr
    (fun c acc => if c = 32 then [] :: acc else match acc with
      | w :: ws => (c :: w) :: ws
      | [] => [[c]]) [[]])

/-- What a word says: for each aspect (by the first component) the values that it allows, of which
the first must be there. -/
def meaning : List (Str × List (List Fe)) := [
  (a!"vowel", [[Phf.ph_class.vowel]]),
  (a!"open", [[Phf.height.«open»]]),
  (a!"near_open", [[Phf.height.near_open]]),
  (a!"open_mid", [[Phf.height.open_mid]]),
  (a!"mid", [[Phf.height.«mid»]]),
  (a!"close_mid", [[Phf.height.close_mid]]),
  (a!"near_close", [[Phf.height.near_close]]),
  (a!"close", [[Phf.height.close]]),
  (a!"front", [[Phf.backness.front]]),
  (a!"near_front", [[Phf.backness.near_front]]),
  (a!"center", [[Phf.backness.central]]),
  (a!"near_back", [[Phf.backness.near_back]]),
  (a!"back", [[Phf.backness.back]]),
  (a!"rounded", [[Phf.labialization.rounded]]),
  (a!"unrounded", [[Phf.labialization.unrounded]]),
  (a!"voiced", [[Phf.voicing.voiced]]),
  (a!"voiceless", [[Phf.voicing.voiceless]]),
  (a!"stop", [[Phf.manner.stop], [Phf.nasalization.«none»], [Phf.ph_class.consonant]]),
  (a!"nasal", [[Phf.manner.stop], [Phf.nasalization.nasalized], [Phf.ph_class.consonant]]),
  (a!"trill", [[Phf.manner.trill], [Phf.ph_class.consonant]]),
  (a!"flap", [[Phf.manner.tap], [Phf.ph_class.consonant]]),
  (a!"sibilant", [[Phf.manner.sibilant]]),
  (a!"non-sibilant", [[Phf.manner.non_sibilant]]),
  (a!"fricative", [[Phf.ph_class.consonant]]),
  (a!"approximant", [[Phf.manner.approximant], [Phf.ph_class.consonant]]),
  (a!"lateral", [[Phf.lateralization.lateral]]),
  (a!"bilabial", [[Phf.place.labial], [Phf.articulator.labial], [Phf.labialization.labialized]]),
  (a!"labiodental", [[Phf.place.dental], [Phf.articulator.labial], [Phf.labialization.labialized]]),
  (a!"dental", [[Phf.place.dental], [Phf.articulator.apical]]),
  (a!"alveolar", [[Phf.place.alveolar, Phf.place.dental, Phf.place.postalveolar],
    [Phf.articulator.apical, Phf.articulator.laminal]]),
  (a!"postalveolar", [[Phf.place.postalveolar], [Phf.articulator.laminal], [Phf.palatalization.light]]),
  (a!"retroflex", [[Phf.place.postalveolar, Phf.place.palatal], [Phf.articulator.apical]]),
  (a!"palatal", [[Phf.place.palatal], [Phf.articulator.dorsal, Phf.articulator.apical,
    Phf.articulator.laminal], [Phf.palatalization.heavy]]),
  (a!"velar", [[Phf.place.velar], [Phf.articulator.dorsal]]),
  (a!"uvular", [[Phf.place.uvular], [Phf.articulator.dorsal]]),
  (a!"pharyngeal", [[Phf.place.epiglottal], [Phf.articulator.laryngeal]]),
  (a!"epiglottal", [[Phf.place.epiglottal], [Phf.articulator.laryngeal]]),
  (a!"glottal", [[Phf.place.glottal], [Phf.articulator.laryngeal]]),
  (a!"labial-velar", [[Phf.place.velar], [Phf.articulator.dorsal], [Phf.labialization.labialized]]),
  (a!"labial-palatal", [[Phf.place.palatal], [Phf.palatalization.heavy],
    [Phf.labialization.labialized]]),
  (a!"palatal-velar", [[Phf.place.velar], [Phf.articulator.dorsal], [Phf.palatalization.heavy]])]

/-- The profile has the first of the values, and in that aspect no others. -/
def Allows (p : PhonInv.Profile) (vs : List Fe) : Prop :=
  ∃ f ∈ vs.head?, ∃ s, p[f.1]? = some s ∧ f.2 ∈ s ∧ ∀ v ∈ s, (f.1, v) ∈ vs

/-- The word is known, and the profile has what it says. -/
def Says (w : Str) (p : PhonInv.Profile) : Prop := ∃ m, (w, m) ∈ meaning ∧ ∀ vs ∈ m, Allows p vs

namespace PhonInvAux

def allowsB (p : PhonInv.Profile) : List Fe → Bool
  | [] => false
  | f :: fs => match p[f.1]? with
    | none => false
    | some s => s.contains f.2 && s.all (fun v => (f :: fs).contains (f.1, v))

theorem allows_of {p : PhonInv.Profile} {vs : List Fe} (h : allowsB p vs = true) : Allows p vs := by
  cases vs with
  | nil => cases h
  | cons f fs =>
    simp only [allowsB] at h
    cases hs : p[f.1]? with
    | none => rw [hs] at h; cases h
    | some s =>
      rw [hs] at h
      simp only [Bool.and_eq_true, List.contains_iff_mem, List.all_eq_true] at h
      exact ⟨f, rfl, s, hs, h.1, h.2⟩

def saysB (w : Str) (p : PhonInv.Profile) : Bool :=
  meaning.any (fun m => NT.seq m.1 w && m.2.all (allowsB p))

theorem says_of {w : Str} {p : PhonInv.Profile} (h : saysB w p = true) : Says w p := by
  obtain ⟨⟨w', m⟩, hm, h⟩ := List.any_eq_true.1 h
  simp only [Bool.and_eq_true, List.all_eq_true] at h
  obtain ⟨h1, h2⟩ := h
  have := seq_iff.1 h1
  subst this
  exact ⟨m, hm, fun vs hv => allows_of (h2 vs hv)⟩

end PhonInvAux
open PhonInvAux

/-- C121: every word in the name of a phoneme other than ø holds of its descriptive features. -/
theorem C121_names_partial : ∃ inv, phonemes = some inv ∧ inv.length = 100 ∧
    ∀ ph ∈ inv, ph.alias ≠ a!"oi" → ∀ w ∈ nameWords ph.name, Says w ph.desc := by
  refine ⟨table, phonemes_eq, by decide +kernel, ?_⟩
  have h : ∀ ph ∈ table, ph.alias ≠ a!"oi" → ∀ w ∈ nameWords ph.name, saysB w ph.desc = true := by
    decide +kernel
  intro ph hp ha w hw
  exact says_of (h ph hp ha w hw)

/-- C121: what the name of a consonant does not say is not there: lateral, nasalized, labialized,
palatalized, rhotic. -/
theorem C121_unsaid : ∃ inv, phonemes = some inv ∧ ∀ ph ∈ inv,
    (a!"lateral" ∉ nameWords ph.name → Phf.lateralization.lateral ∉ features ph.desc) ∧
    (a!"nasal" ∉ nameWords ph.name → Phf.nasalization.nasalized ∉ features ph.desc) ∧
    ((∀ w ∈ nameWords ph.name, w ∉ [a!"bilabial", a!"labiodental", a!"labial-velar",
      a!"labial-palatal"]) → Phf.labialization.labialized ∉ features ph.desc) ∧
    ((∀ w ∈ nameWords ph.name, w ∉ [a!"palatal", a!"labial-palatal", a!"palatal-velar",
      a!"postalveolar"]) → Phf.palatalization.light ∉ features ph.desc ∧
        Phf.palatalization.heavy ∉ features ph.desc) ∧
    (a!"voiceless" ∉ nameWords ph.name → ph.alias ∉ [a!"x", a!"c"] →
      Phf.voicing.voiceless ∉ features ph.desc) ∧
    (a!"vowel" ∉ nameWords ph.name ↔ Phf.ph_class.consonant ∈ features ph.desc) ∧
    Phf.rhoticization.rhotic ∉ features ph.desc := by
  refine ⟨table, phonemes_eq, ?_⟩
  have h1 : ∀ ph ∈ table, a!"lateral" ∉ nameWords ph.name →
      Phf.lateralization.lateral ∉ features ph.desc := by decide +kernel
  have h2 : ∀ ph ∈ table, a!"nasal" ∉ nameWords ph.name →
      Phf.nasalization.nasalized ∉ features ph.desc := by decide +kernel
  have h3 : ∀ ph ∈ table, (∀ w ∈ nameWords ph.name, w ∉ [a!"bilabial", a!"labiodental",
      a!"labial-velar", a!"labial-palatal"]) → Phf.labialization.labialized ∉ features ph.desc := by
    decide +kernel
  have h4 : ∀ ph ∈ table, (∀ w ∈ nameWords ph.name, w ∉ [a!"palatal", a!"labial-palatal",
      a!"palatal-velar", a!"postalveolar"]) → Phf.palatalization.light ∉ features ph.desc ∧
        Phf.palatalization.heavy ∉ features ph.desc := by decide +kernel
  have h5 : ∀ ph ∈ table, a!"voiceless" ∉ nameWords ph.name → ph.alias ∉ [a!"x", a!"c"] →
      Phf.voicing.voiceless ∉ features ph.desc := by decide +kernel
  have h6 : ∀ ph ∈ table, (a!"vowel" ∉ nameWords ph.name ↔
      Phf.ph_class.consonant ∈ features ph.desc) := by decide +kernel
  have h7 : ∀ ph ∈ table, Phf.rhoticization.rhotic ∉ features ph.desc := by decide +kernel
  exact fun ph h => ⟨h1 ph h, h2 ph h, h3 ph h, h4 ph h, h5 ph h, h6 ph h, h7 ph h⟩

/-- C121 is violated by ø, the close-mid front rounded vowel: none of the loops for the height of
vowels has it, so its height is `any`, and its similarity to y, œ and ɶ is 1. -/
theorem C121_height_violated : ∃ inv, phonemes = some inv ∧ ∃ ph ∈ inv,
    ph.ipa = a!"ø" ∧ a!"close_mid" ∈ nameWords ph.name ∧ ¬ Says a!"close_mid" ph.desc ∧
    ph.desc[Phf.height.«any».1]? = some [Phf.height.«any».2] ∧
    ∀ ipa ∈ [a!"y", a!"œ", a!"ɶ"], ∃ q ∈ inv, q.ipa = ipa ∧ similarity ph.desc q.desc = .ok 1 := by
  have hm : ∀ p ∈ table, ∀ q ∈ table, natTotal quarters p.desc q.desc = 0 →
      similarity p.desc q.desc = .ok 1 := by
    intro p hp q hq h
    rw [similarity_eq (table_valid p hp) (table_valid q hq), h]
    exact congrArg Except.ok (by decide +kernel)
  refine ⟨table, phonemes_eq, table[17], List.getElem_mem _, by decide +kernel, by decide +kernel, ?_,
    by decide +kernel, ?_⟩
  · rintro ⟨m, h1, h2⟩
    have h1 : m = [[Phf.height.close_mid]] := by
      have : ∀ e ∈ meaning, e.1 = a!"close_mid" → e.2 = [[Phf.height.close_mid]] := by decide +kernel
      exact this _ h1 rfl
    subst h1
    obtain ⟨f, hf, s, hs, hv, _⟩ := h2 _ (List.mem_singleton.2 rfl)
    simp only [List.head?_cons, Option.mem_def, Option.some.injEq] at hf
    subst hf
    have : (table[17].desc)[Phf.height.close_mid.1]? = some [1000] := by decide +kernel
    rw [this] at hs
    cases hs
    revert hv
    decide +kernel
  · intro ipa hi
    have : ∀ ipa ∈ [a!"y", a!"œ", a!"ɶ"], ∃ q ∈ table, q.ipa = ipa ∧
        natTotal quarters table[17].desc q.desc = 0 := by decide +kernel
    obtain ⟨q, hq, h1, h2⟩ := this ipa hi
    exact ⟨q, hq, h1, hm _ (List.getElem_mem _) q hq h2⟩

/-! ## Telling phonemes apart -/

/-- C121: two phonemes with the same alias, the same IPA or the same name are the same, and so are two
with the same descriptive features. -/
theorem C121_distinct : ∃ inv, phonemes = some inv ∧ (inv.map (·.alias)).Nodup ∧
    (inv.map (·.ipa)).Nodup ∧ (inv.map (·.name)).Nodup ∧
    ∀ p ∈ inv, ∀ q ∈ inv, (∀ f, f ∈ features p.desc ↔ f ∈ features q.desc) → p = q := by
  refine ⟨table, phonemes_eq, by decide +kernel, by decide +kernel, by decide +kernel, ?_⟩
  have h : ∀ p ∈ table, ∀ q ∈ table, NT.seq p.alias q.alias = false →
      ((features p.desc).all (fun f => (features q.desc).any (fun g => Nat.beq f.1 g.1 && Nat.beq f.2 g.2)) &&
      (features q.desc).all (fun f => (features p.desc).any (fun g => Nat.beq f.1 g.1 && Nat.beq f.2 g.2))) =
        false := by
    decide +kernel
  have hn : ∀ p ∈ table, ∀ q ∈ table, NT.seq p.alias q.alias = true → p = q := by decide +kernel
  intro p hp q hq hf
  cases e : NT.seq p.alias q.alias with
  | true => exact hn p hp q hq e
  | false =>
    have hc := h p hp q hq e
    have sub : ∀ {x y : List Fe}, (∀ f ∈ x, f ∈ y) →
        x.all (fun f => y.any (fun g => Nat.beq f.1 g.1 && Nat.beq f.2 g.2)) = true := by
      intro x y hxy
      rw [List.all_eq_true]
      intro f hx
      rw [List.any_eq_true]
      exact ⟨f, hxy f hx, by simp [Nat.beq_refl]⟩
    rw [sub (fun f hx => (hf f).1 hx), sub (fun f hx => (hf f).2 hx)] at hc
    cases hc

/-- The pairs of different phonemes with overlapping values in every aspect. -/
def overlapping : List (Str × Str) := [
  (a!"ø", a!"y"), (a!"ø", a!"œ"), (a!"ø", a!"ɶ"), (a!"d", a!"ɖ"), (a!"t", a!"ʈ"), (a!"n", a!"ɳ"),
  (a!"l", a!"ɭ"), (a!"ɬ", a!"ꞎ"), (a!"ɹ", a!"ɻ"), (a!"ɾ", a!"ɽ"), (a!"ʜ", a!"ʢ")]

namespace PhonInvAux

def pairCheck (p q : Phoneme) : Bool :=
  let n := natTotal quarters p.desc q.desc
  let v := NT.seq (p.desc.headD []) [1]
  let w := NT.seq (q.desc.headD []) [1]
  (if Bool.xor v w then Nat.ble 46 n else if v then Nat.ble n 24 else Nat.ble n 36) &&
  (Bool.xor (!Nat.beq n 0) (NT.seq p.ipa q.ipa ||
    overlapping.any (fun o => NT.seq o.1 p.ipa && NT.seq o.2 q.ipa ||
      NT.seq o.1 q.ipa && NT.seq o.2 p.ipa)))

theorem pairs : ∀ p ∈ table, ∀ q ∈ table, pairCheck p q = true := by decide +kernel

theorem sim_bounds {n : Nat} : (n ≤ 24 → (35 / 47 : Rat) ≤ 1 - (n : Rat) / 94) ∧
    (n ≤ 36 → (29 / 47 : Rat) ≤ 1 - (n : Rat) / 94) ∧
    (46 ≤ n → 1 - (n : Rat) / 94 ≤ (24 / 47 : Rat)) ∧ (1 - (n : Rat) / 94 = 1 ↔ n = 0) := by
  refine ⟨fun h => ?_, fun h => ?_, fun h => ?_, fun h => ?_, fun h => ?_⟩
  · have : (n : Rat) ≤ ((24 : Nat) : Rat) := by exact_mod_cast h
    grind
  · have : (n : Rat) ≤ ((36 : Nat) : Rat) := by exact_mod_cast h
    grind
  · have : ((46 : Nat) : Rat) ≤ (n : Rat) := by exact_mod_cast h
    grind
  · have : (n : Rat) = ((0 : Nat) : Rat) := by grind
    exact_mod_cast this
  · subst h; decide +kernel

end PhonInvAux

/-- The name says that the phoneme is a vowel. -/
def IsVowel (p : Phoneme) : Prop := a!"vowel" ∈ nameWords p.name

/-- C121: phonemes of the same class are always more similar than phonemes of different classes: two
vowels at least 35/47, two consonants at least 29/47, a vowel and a consonant at most 24/47.  The
similarity is 1 only for one and the same phoneme and for the pairs in `overlapping`. -/
theorem C121_similarity_partial : ∃ inv, phonemes = some inv ∧ ∀ p ∈ inv, ∀ q ∈ inv, ∃ x,
    similarity p.desc q.desc = .ok x ∧
    (IsVowel p → IsVowel q → 35 / 47 ≤ x) ∧ (¬ IsVowel p → ¬ IsVowel q → 29 / 47 ≤ x) ∧
    (IsVowel p → ¬ IsVowel q → x ≤ 24 / 47) ∧ (¬ IsVowel p → IsVowel q → x ≤ 24 / 47) ∧
    (x = 1 ↔ p = q ∨ (p.ipa, q.ipa) ∈ overlapping ∨ (q.ipa, p.ipa) ∈ overlapping) := by
  refine ⟨table, phonemes_eq, ?_⟩
  intro p hp q hq
  refine ⟨_, similarity_eq (table_valid p hp) (table_valid q hq), ?_⟩
  have hv : ∀ p ∈ table, (IsVowel p ↔ NT.seq (p.desc.headD []) [1] = true) := by
    have : ∀ p ∈ table, (a!"vowel" ∈ nameWords p.name ↔ NT.seq (p.desc.headD []) [1] = true) := by
      decide +kernel
    exact this
  have hi : ∀ p ∈ table, ∀ q ∈ table, NT.seq p.ipa q.ipa = true → p = q := by decide +kernel
  have key := pairs p hp q hq
  rw [hv p hp, hv q hq]
  unfold pairCheck at key
  obtain ⟨b1, b2, b3, b4⟩ := @sim_bounds (natTotal quarters p.desc q.desc)
  generalize natTotal quarters p.desc q.desc = n at *
  simp only [Bool.and_eq_true] at key
  obtain ⟨k1, k2⟩ := key
  have e0 : (!Nat.beq n 0) = true ↔ n ≠ 0 := by
    cases n <;> simp [Nat.beq]
  generalize NT.seq (p.desc.headD []) [1] = v at *
  generalize NT.seq (q.desc.headD []) [1] = w at *
  refine ⟨fun h1 h2 => b1 ?_, fun h1 h2 => b2 ?_, fun h1 h2 => b3 ?_, fun h1 h2 => b3 ?_, ?_⟩
  · simpa [h1, h2] using k1
  · simpa [h1, h2] using k1
  · simpa [h1, h2] using k1
  · simpa [h1, h2] using k1
  · rw [b4]
    have ho : (p = q ∨ (p.ipa, q.ipa) ∈ overlapping ∨ (q.ipa, p.ipa) ∈ overlapping) ↔
        (NT.seq p.ipa q.ipa || overlapping.any (fun o => NT.seq o.1 p.ipa && NT.seq o.2 q.ipa ||
          NT.seq o.1 q.ipa && NT.seq o.2 p.ipa)) = true := by
      simp only [Bool.or_eq_true, List.any_eq_true, Bool.and_eq_true, seq_iff]
      constructor
      · rintro (rfl | h | h)
        · exact .inl rfl
        · exact .inr ⟨_, h, .inl ⟨rfl, rfl⟩⟩
        · exact .inr ⟨_, h, .inr ⟨rfl, rfl⟩⟩
      · rintro (h | ⟨⟨o1, o2⟩, h, ⟨h1, h2⟩ | ⟨h1, h2⟩⟩)
        · exact .inl (hi p hp q hq (seq_iff.2 h))
        · simp only at h1 h2; subst h1; subst h2; exact .inr (.inl h)
        · simp only at h1 h2; subst h1; subst h2; exact .inr (.inr h)
    rw [ho]
    generalize (NT.seq p.ipa q.ipa || overlapping.any (fun o => NT.seq o.1 p.ipa && NT.seq o.2 q.ipa ||
          NT.seq o.1 q.ipa && NT.seq o.2 p.ipa)) = b at k2
    cases b
    · simp only [Bool.xor_false] at k2
      simpa using e0.1 k2
    · simp only [Bool.xor_true, Bool.not_not] at k2
      simpa using Nat.eq_of_beq_eq_true k2

/-! ## Atomics -/

/-- C121: after `sync_atomics` the atomic of a symbol has exactly the descriptive features of the
symbol, whatever it had before, if the symbol has a value in every aspect. -/
theorem C121_atomics (q p : PhonInv.Profile) (hl : q.length = p.length) (hp : ∀ s ∈ p, s ≠ []) :
    ∀ f, f ∈ features (sync q p) ↔ f ∈ features p := by
  rintro ⟨a, v⟩
  rw [mem_features, sync, update_get]
  have hg : ∀ w, w ∈ group (features p) a ↔ (a, w) ∈ features p := fun w => mem_group
  constructor
  · rintro ⟨s, hs, hv⟩
    obtain ⟨t, ht, e⟩ := Option.map_eq_some_iff.1 hs
    obtain ⟨ha, rfl⟩ := List.getElem?_eq_some_iff.1 ht
    have ha' : a < p.length := by omega
    have hne := hp _ (List.getElem_mem ha')
    have : ¬ ((group (features p) a).isEmpty = true) := by
      rw [group_empty]
      intro h
      obtain ⟨w, hw⟩ := List.exists_mem_of_ne_nil _ hne
      exact h w (mem_features.2 ⟨_, List.getElem?_eq_getElem ha', hw⟩)
    rw [if_neg this] at e
    subst e
    exact mem_group.1 hv
  · intro h
    have h' := mem_features.1 h
    obtain ⟨s, hs, hv⟩ := h'
    have ha : a < p.length := (List.getElem?_eq_some_iff.1 hs).1
    have ha' : a < q.length := by omega
    rw [List.getElem?_eq_getElem ha']
    refine ⟨_, rfl, ?_⟩
    show v ∈ if (group (features p) a).isEmpty = true then q[a] else group (features p) a
    have : ¬ ((group (features p) a).isEmpty = true) := by
      rw [group_empty]
      intro h'
      exact h' v h
    rw [if_neg this]
    exact mem_group.2 h

/-- C121: every phoneme has a value in every aspect. -/
theorem C121_complete : ∃ inv, phonemes = some inv ∧
    ∀ p ∈ inv, p.desc.length = roots.length ∧ ∀ s ∈ p.desc, s ≠ [] := by
  refine ⟨table, phonemes_eq, ?_⟩
  decide +kernel

/-! ## Examples -/

/-- The voiceless postalveolar sibilant of the inventory meets the hypotheses of `C121_last_update`:
the loop for postalveolar consonants is the last that names its place. -/
example : ∃ inv, phonemes = some inv ∧ ∃ ph ∈ inv, ph.ipa = a!"ʃ" ∧
    Exactly ph.desc Phf.place.labial.1 Phf.postalveolar := by
  refine ⟨table, phonemes_eq, table[76], List.getElem_mem _, by decide +kernel, ?_⟩
  have h : inventory vowels consonants (updates.take 30 ++ updates[30] :: updates.drop 31) =
      some table := by
    rw [show updates.take 30 ++ updates[30] :: updates.drop 31 = updates from by decide +kernel]
    exact phonemes_eq
  exact C121_last_update h (ph := table[76]) (List.getElem_mem _) (by decide +kernel)
    (v := Phf.place.postalveolar.2) (by decide +kernel) (by decide +kernel) (by
      have : ∀ op ∈ updates.drop 31, table[76].alias ∈ op.1 → ∀ f ∈ op.2, f.1 ≠ Phf.place.labial.1 := by
        decide +kernel
      exact fun op ho h v hv => this op ho h _ hv rfl)

/-- No update names the duration of a vowel; its syllabicity is that of the profile of vowels. -/
example : ∃ ph ∈ table, ph.ipa = a!"ə" ∧ ph.desc[Phf.duration.short.1]? = some [1000] ∧
    ph.desc[Phf.syllabicity.syllabic.1]? = some [1] := by decide +kernel

example : nameWords a!"voiced retro­flex stop" = [a!"voiced", a!"retroflex", a!"stop"] := by
  decide +kernel

example : ∃ p ∈ table, ∃ q ∈ table, p.ipa = a!"m" ∧ q.ipa = a!"u" ∧ ¬ IsVowel p ∧ IsVowel q := by
  unfold IsVowel
  decide +kernel

end Nisaba.Props
