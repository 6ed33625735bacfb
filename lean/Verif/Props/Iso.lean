import Verif.Lemmas.IsoWellformed
import Verif.Props.Nfc
/-!
# Conversion to ISO 15919 and back (C19 – C22)

`fromScript d R` and `toScript d R` are `FROM_<script>` and `TO_<script>`, where `R` is the NFC
grammar of the script; `Best a x y` says that `y` is the output of a lowest-weight path for `x`.
-/
namespace Nisaba.Props
open WRel

/-- The alphabet contains that of the script (in byte mode it is everything). -/
def Contains (σ : Nat → Prop) (d : BrahmicData) : Prop := ∀ c, sigmaUtf8 d c → σ c

theorem Contains.writes {σ : Nat → Prop} {d : BrahmicData} (h : Contains σ d) : Writes σ d.nfc :=
  fun p hp c hc => h c (writes_sigmaUtf8 d p hp c hc)

namespace Iso

theorem nfc_iff {d : BrahmicData} (hd : d ∈ Data.scripts) {σ : Nat → Prop} (hσ : Contains σ d)
    {R : Rel} (hR : nfcFst d σ = some R) {s t : Str} :
    R s t ↔ Over σ s ∧ t = applyRules d.nfc s :=
  fstFromRules_iff (cleanRules_nonempty (nfc_clean hd)) hσ.writes hR

/-- A text is romanized by romanizing its NFC form. -/
theorem from_iff {d : BrahmicData} (hd : d ∈ Data.scripts) {σ : Nat → Prop} (hσ : Contains σ d)
    {R : Rel} (hR : nfcFst d σ = some R) {s t y : Str} {w : Nat} (hst : R s t) :
    fromScript d R s y w ↔ brahmicToIso d t y w := by
  constructor
  · rintro ⟨t', u, v, ⟨h1, rfl⟩, h2, rfl⟩
    have : t' = t := by
      rw [((nfc_iff hd hσ hR).1 h1).2, ((nfc_iff hd hσ hR).1 hst).2]
    rw [← this]
    simpa using h2
  · intro h
    exact ⟨t, 0, w, ⟨hst, rfl⟩, h, by simp⟩

theorem to_iff {d : BrahmicData} {R : Rel} {y z : Str} {w : Nat} :
    toScript d R y z w ↔ ∃ m, brahmicToIso d m y w ∧ R m z := by
  constructor
  · rintro ⟨m, u, v, h1, ⟨h2, rfl⟩, rfl⟩
    exact ⟨m, h1, h2⟩
  · rintro ⟨m, h1, h2⟩
    exact ⟨m, w, 0, h1, ⟨h2, rfl⟩, rfl⟩

end Iso

open Iso

/-- C19: a text that can be romanized has exactly one lowest-weight romanization, and every path
with another output costs more. -/
theorem C19_unambiguous {d : BrahmicData} (hd : d ∈ Data.scripts) {σ : Nat → Prop}
    (hσ : Contains σ d) {R : Rel} (hR : nfcFst d σ = some R) {s : Str}
    (h : ∃ y w, fromScript d R s y w) :
    ∃ y w, fromScript d R s y w ∧ (∀ y' w', fromScript d R s y' w' → y' ≠ y → w < w') ∧
      ∀ y', Best (fromScript d R) s y' ↔ y' = y := by
  obtain ⟨F⟩ := isoFacts hd
  obtain ⟨y₁, w₁, h₁⟩ := h
  have hst : R s (applyRules d.nfc s) := by
    obtain ⟨t, _, _, ⟨h, _⟩, _⟩ := h₁
    exact (nfc_iff hd hσ hR).2 ⟨((nfc_iff hd hσ hR).1 h).1, rfl⟩
  have key := fun {y w} => from_iff (y := y) (w := w) hd hσ hR hst
  obtain ⟨y, w, hy, hmin⟩ := iso_best F.ok (key.1 h₁)
  refine ⟨y, w, key.2 hy, fun y' w' h' hne => ?_, fun y' => ⟨?_, ?_⟩⟩
  · rcases hmin y' w' (key.1 h') with h | ⟨_, h⟩
    · exact h
    · exact absurd h hne
  · rintro ⟨w', h', hle⟩
    have := hle y w (key.2 hy)
    rcases hmin y' w' (key.1 h') with h | ⟨_, h⟩
    · omega
    · exact h
  · rintro rfl
    refine ⟨w, key.2 hy, fun y'' w'' h'' => ?_⟩
    rcases hmin y'' w'' (key.1 h'') with h | ⟨h, _⟩
    · omega
    · omega

/-- C20: converting to ISO and back to the same script gives the NFC form of the text and nothing
else, whichever lowest-weight paths are taken. -/
theorem C20_lossless {d : BrahmicData} (hd : d ∈ Data.scripts) {σ : Nat → Prop}
    (hσ : Contains σ d) {R : Rel} (hR : nfcFst d σ = some R) {s t y : Str} (hst : R s t)
    (hy : Best (fromScript d R) s y) (z : Str) : Best (toScript d R) y z ↔ z = t := by
  obtain ⟨F⟩ := isoFacts hd
  have hy' : Best (brahmicToIso d) t y := by
    obtain ⟨w, h, hmin⟩ := hy
    exact ⟨w, (from_iff hd hσ hR hst).1 h, fun y' w' h' => hmin y' w' ((from_iff hd hσ hR hst).2 h')⟩
  have hban : ∀ c ∈ t, F.ban c = false := by
    intro c hc
    cases hb : F.ban c with
    | false => rfl
    | true =>
      obtain ⟨p, hp, e⟩ := F.banned c hb
      refine absurd ?_ ((C08_nfc_complete.1 d hd hσ.writes R hR).1 s t hst p hp)
      obtain ⟨a, b, rfl⟩ := List.append_of_mem hc
      rw [e]
      exact ⟨a, b, by simp⟩
  obtain ⟨z₀, w₀, hz, hiso, hmin⟩ := iso_back F.ok hban hy'
  have ht : applyRules d.nfc t = t := by
    rw [((nfc_iff hd hσ hR).1 hst).2]
    exact cleanRules_idem (nfc_clean hd) s
  have hover : Over σ t := by
    obtain ⟨_, h1, h2⟩ := C06_nfc_total.1 d hd σ hσ.writes
    rw [hR] at h1; cases h1
    obtain ⟨t', h3, h4, h5⟩ := h2 s ((nfc_iff hd hσ hR).1 hst).1
    rw [h5 t hst]; exact h4
  have hz₀ : R z₀ t := by
    refine (nfc_iff hd hσ hR).2 ⟨fun c hc => ?_, ?_⟩
    · obtain ⟨a, rest, ha⟩ := List.exists_cons_of_ne_nil (F.writes c)
      have hac : a ∈ F.f c := by rw [ha]; exact List.mem_cons_self ..
      have hat : a ∈ t := by rw [← hz]; exact List.mem_flatMap.2 ⟨c, hc, hac⟩
      rcases F.keeps c a hac with rfl | ⟨p, hp, e⟩
      · exact hover c hat
      · refine hσ c (Or.inl ?_)
        have : c ∈ bothChars d.nfc :=
          List.mem_flatMap.2 ⟨p, hp, List.mem_append_left _ (by rw [e]; exact List.mem_cons_self ..)⟩
        simp [scriptChars, this]
    · rw [← F.same, hz, ht]
  constructor
  · rintro ⟨w, h, hle⟩
    obtain ⟨m, h1, h2⟩ := to_iff.1 h
    have hw := hle t w₀ (to_iff.2 ⟨z₀, hiso, hz₀⟩)
    rcases hmin m w h1 with h | ⟨_, h⟩
    · omega
    · rw [((nfc_iff hd hσ hR).1 h2).2, ← F.same, h, ht]
  · rintro rfl
    refine ⟨w₀, to_iff.2 ⟨z₀, hiso, hz₀⟩, fun y' w' h' => ?_⟩
    obtain ⟨m, h1, _⟩ := to_iff.1 h'
    rcases hmin m w' h1 with h | ⟨h, _⟩ <;> omega

/-- C21: every well-formed text can be romanized. -/
theorem C21_wellformed {d : BrahmicData} (hd : d ∈ Data.scripts) {σ : Nat → Prop}
    (hσ : Contains σ d) {R : Rel} (hR : nfcFst d σ = some R) {s : Str} (h : wellFormed d s) :
    ∃ y w, fromScript d R s y w := by
  have hst : R s (applyRules d.nfc s) :=
    (nfc_iff hd hσ hR).2 ⟨fun c hc => hσ c (IsoWf.wf_over hd h c hc), rfl⟩
  obtain ⟨y, w, h⟩ := IsoWf.rom_nfc hd h
  exact ⟨y, w, (from_iff hd hσ hR hst).2 h⟩

/-- C19, C20 and C21 together: a well-formed text survives conversion to ISO and back, up to NFC. -/
theorem C21_round_trip {d : BrahmicData} (hd : d ∈ Data.scripts) {σ : Nat → Prop}
    (hσ : Contains σ d) {R : Rel} (hR : nfcFst d σ = some R) {s : Str} (h : wellFormed d s) :
    ∃ t y, (∀ u, R s u ↔ u = t) ∧ (∀ u, Best (fromScript d R) s u ↔ u = y) ∧
      ∀ u, Best (toScript d R) y u ↔ u = t := by
  obtain ⟨y, w, _, _, hy⟩ := C19_unambiguous hd hσ hR (C21_wellformed hd hσ hR h)
  have hst : R s (applyRules d.nfc s) :=
    (nfc_iff hd hσ hR).2 ⟨fun c hc => hσ c (IsoWf.wf_over hd h c hc), rfl⟩
  refine ⟨applyRules d.nfc s, y, fun u => ?_, hy, C20_lossless hd hσ hR hst ((hy y).2 rfl)⟩
  rw [nfc_iff hd hσ hR]
  exact ⟨fun h => h.2, fun e => ⟨fun c hc => hσ c (IsoWf.wf_over hd h c hc), e⟩⟩

/-- C22: romanizations of two texts, concatenated, are a romanization of the concatenated texts, at
the sum of the costs. -/
theorem C22_concat (d : BrahmicData) {x y x' y' : Str} {w w' : Nat} (h : brahmicToIso d x y w)
    (h' : brahmicToIso d x' y' w') : brahmicToIso d (x ++ x') (y ++ y') (w + w') := by
  induction h with
  | nil => simpa using h'
  | cons h _ ih =>
    simp only [List.append_assoc, Nat.add_assoc]
    exact Star.cons h ih

/-- C22 for `FROM_<script>`, for texts whose NFC form is the concatenation of the two NFC forms: the
best romanization costs no more than the best ones of the parts together. -/
theorem C22_from {d : BrahmicData} (hd : d ∈ Data.scripts) {σ : Nat → Prop}
    (hσ : Contains σ d) {R : Rel} (hR : nfcFst d σ = some R) {s s' t t' y y' : Str} {w w' : Nat}
    (hs : R s t) (hs' : R s' t') (hb : R (s ++ s') (t ++ t')) (h : fromScript d R s y w)
    (h' : fromScript d R s' y' w') :
    fromScript d R (s ++ s') (y ++ y') (w + w') ∧
      ∃ y'' w'', fromScript d R (s ++ s') y'' w'' ∧ Best (fromScript d R) (s ++ s') y'' ∧
        w'' ≤ w + w' := by
  have hc := (from_iff hd hσ hR hb).2
    (C22_concat d ((from_iff hd hσ hR hs).1 h) ((from_iff hd hσ hR hs').1 h'))
  refine ⟨hc, ?_⟩
  obtain ⟨y'', w'', h1, _, h2⟩ := C19_unambiguous hd hσ hR ⟨_, _, hc⟩
  obtain ⟨v, h3, h4⟩ := (h2 y'').2 rfl
  exact ⟨y'', v, h3, (h2 y'').2 rfl, h4 _ _ hc⟩

/-! ## Instances -/

namespace Iso

theorem row {rows : List Rule} (p : Rule) (h : (rows.any fun q => ruleEq p q) = true) : p ∈ rows := by
  obtain ⟨q, hq, e⟩ := List.any_eq_true.1 h
  simp only [ruleEq, Bool.and_eq_true] at e
  have : p = q := Prod.ext (IsoWf.strEq_true e.1) (IsoWf.strEq_true e.2)
  rw [this]; exact hq

/-- Gujarati KA with the sign AA is `kā`, at no cost. -/
theorem gujr_ka : brahmicToIso Data.gujr [0xA95, 0xABE] [0x6B, 0x101] 0 :=
  Star.one (isoUnits_iff.2 (IsoUnit.sign (d := Data.gujr)
    (IsoCons.core (r := ([0xA95], [0x6B])) (row _ (by decide +kernel)))
    (r := ([0xABE], [0x101])) (row _ (by decide +kernel))))

/-- The same text is also `k-ā` at cost 2 ... -/
example : ∃ w, brahmicToIso Data.gujr [0xA95, 0xABE] [0x6B, 0x61, 0x2D, 0x101] w := ⟨2,
  C22_concat Data.gujr (x := [0xA95]) (y := [0x6B, 0x61])
    (Star.one (isoUnits_iff.2 (IsoUnit.inherent (d := Data.gujr)
      (IsoCons.core (r := ([0xA95], [0x6B])) (row _ (by decide +kernel)))
      (i := ([0x61], [0x61])) (row _ (by decide +kernel)))))
    (Star.one (isoUnits_iff.2 (IsoUnit.dash (d := Data.gujr) (r := ([0xABE], [0x101]))
      (row _ (by decide +kernel)))))⟩

/-- ... so the hypotheses of C19 and C20 hold of a text with several romanizations. -/
example : ∃ R, nfcFst Data.gujr (sigmaUtf8 Data.gujr) = some R ∧
    R [0xA95, 0xABE] [0xA95, 0xABE] ∧ Best (fromScript Data.gujr R) [0xA95, 0xABE] [0x6B, 0x101] := by
  have hd : Data.gujr ∈ Data.scripts := by simp [Data.scripts]
  have hσ : Contains (sigmaUtf8 Data.gujr) Data.gujr := fun _ h => h
  obtain ⟨R, hR, _⟩ := C06_nfc_total.1 _ hd _ hσ.writes
  have hst : R [0xA95, 0xABE] [0xA95, 0xABE] := by
    refine (nfc_iff hd hσ hR).2 ⟨?_, by decide +kernel⟩
    intro c hc
    simp at hc
    rcases hc with rfl | rfl <;> left <;> exact memNat_iff.1 (by decide +kernel)
  exact ⟨R, hR, hst, 0, (from_iff hd hσ hR hst).2 gujr_ka, fun _ _ _ => Nat.zero_le _⟩

/-- Two Gurmukhi texts share their romanization `śā` and its cost, which is why `TO_GURU` ends with
NFC. -/
example : brahmicToIso Data.guru [0xA36, 0xA3E] [0x15B, 0x101] 0 ∧
    brahmicToIso Data.guru [0xA38, 0xA3C, 0xA3E] [0x15B, 0x101] 0 :=
  ⟨Star.one (isoUnits_iff.2 (IsoUnit.sign (d := Data.guru)
    (IsoCons.core (r := ([0xA36], [0x15B])) (row _ (by decide +kernel)))
    (r := ([0xA3E], [0x101])) (row _ (by decide +kernel)))),
   Star.one (isoUnits_iff.2 (IsoUnit.sign (d := Data.guru)
    (IsoCons.core (r := ([0xA38, 0xA3C], [0x15B])) (row _ (by decide +kernel)))
    (r := ([0xA3E], [0x101])) (row _ (by decide +kernel))))⟩

/-- Not every text can be romanized: a Bengali nukta after nothing cannot. -/
theorem beng_nukta (y : Str) (w : Nat) : ¬ brahmicToIso Data.beng [nat_lit 0x9BC] y w := by
  rw [iso_reach IsoCert.beng_D]
  exact Seq.best_none IsoCert.beng_D IsoCert.beng_full (by decide +kernel)

/-- Devanagari `kSii` (क्षी) is well formed, so C21 applies to it. -/
example : wellFormed Data.deva [0x915, 0x94D, 0x937, 0x940] := by
  rw [← C16_recogniser]; decide +kernel

end Iso

end Nisaba.Props
