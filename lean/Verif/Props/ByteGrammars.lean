import Verif.Lemmas.ByteGrammars
import Verif.Props.ByteMode
import Verif.Props.Iso
import Verif.Props.Reading
import Verif.Props.Abjad
/-!
# Byte-mode and UTF-8-mode grammars agree: ISO, fixed rules, reading, abjads (C30, C97)
-/
namespace Nisaba.Props
open Nisaba WRel

/-- `Wb` does to the UTF-8 bytes of a text exactly what `W` does to the text, with the same weights;
in particular the cheapest results are the same. -/
def WAgreeOnText (W Wb : WRel) : Prop :=
  (∀ s b w, Over textChar s →
    (Wb (utf8 s) b w ↔ ∃ t, Over textChar t ∧ b = utf8 t ∧ W s t w)) ∧
  ∀ s b, Over textChar s →
    (Best Wb (utf8 s) b ↔ ∃ t, Over textChar t ∧ b = utf8 t ∧ Best W s t)

theorem wAgree_of_lifts {W Wb : WRel} (h : WLifts textChar W Wb) (k : WKeeps textChar W) :
    WAgreeOnText W Wb := by
  constructor
  · intro s b w hs
    rw [← encText_utf8 hs, h s b w hs]
    constructor
    · rintro ⟨t, ht, rfl, hR⟩; exact ⟨t, ht, encText_utf8 ht, hR⟩
    · rintro ⟨t, ht, rfl, hR⟩; exact ⟨t, ht, (encText_utf8 ht).symm, hR⟩
  · intro s b hs
    rw [← encText_utf8 hs, best_lifts h k hs]
    constructor
    · rintro ⟨t, ht, rfl, hR⟩; exact ⟨t, ht, encText_utf8 ht, hR⟩
    · rintro ⟨t, ht, rfl, hR⟩; exact ⟨t, ht, (encText_utf8 ht).symm, hR⟩

/-! ## Visual normalization of a language -/

theorem lifts_of_agree {R Rb : Rel} (h : AgreeOnText R Rb) : Lifts textChar R Rb := by
  intro s b hs
  rw [encText_utf8 hs, h s b hs]
  constructor
  · rintro ⟨t, ht, rfl, hR⟩; exact ⟨t, ht, (encText_utf8 ht).symm, hR⟩
  · rintro ⟨t, ht, rfl, hR⟩; exact ⟨t, ht, encText_utf8 ht, hR⟩

/-- C30 for the visual normalization of a language of a script, with its rules before and after
consonants. -/
theorem C30_visual_lang {d : BrahmicData} (hd : d ∈ Data.scripts) {order : List Nat}
    (ho : MarkOrder d order) {before after : List Rule} (hb : TextRules before)
    (ha : TextRules after) :
    ∃ R Rb, visualNormLangFst d before after textChar order = some R ∧
      byteVisualNormLangFst d before after order = some Rb ∧ AgreeOnText R Rb := by
  obtain ⟨V, Vb, h1, h2, h3⟩ := C30_visual hd ho
  have tab := List.all_eq_true.1 tablesTextB_all d hd
  simp only [tablesTextB, Bool.and_eq_true, List.all_eq_true, List.mem_append] at tab
  have cons : ∀ p ∈ d.consonant, Over encodable p.1 :=
    fun p hp c hc => textChar_encodable c ((textB_iff _).1 (tab.1.1.2 p hp) c hc)
  obtain ⟨V', hV', g, m⟩ := visualNorm_graph hd (goodSigma_text hd) ho
  rw [h1] at hV'; cases hV'
  have kV : ∀ s t, Over textChar s → V s t → Over textChar t := by
    intro s t hs h
    obtain ⟨_, rfl⟩ := (g s t).1 h
    exact m s hs
  unfold visualNormLangFst byteVisualNormLangFst
  rw [h1, h2]
  refine ⟨_, _, rfl, rfl, agree_of_lifts ?_⟩
  refine (lifts_of_agree h3).comp (Lifts.comp ?_ ?_ ?_) kV
  · rw [encRel_stringMap]
    exact rewrite_lifts (goodRel_textRules hb)
      ⟨fun _ _ => Iff.rfl, fun s hs => startsIn_enc cons hs⟩ textChar_encodable (fun _ h => h)
      sigmaLifts_text
  · rw [encRel_stringMap]
    exact rewrite_lifts (goodRel_textRules ha)
      ⟨fun s hs => endsIn_enc cons hs, fun _ _ => Iff.rfl⟩ textChar_encodable (fun _ h => h)
      sigmaLifts_text
  · exact fun s t _ h => h.2.1

/-- The tables of Assamese and Bengali meet the hypotheses. -/
example : TextRules Data.bengAsBeforeConsonant ∧ TextRules Data.bengBnBeforeConsonant ∧
    TextRules Data.bengAsAfterConsonant ∧ TextRules Data.bengBnAfterConsonant := by
  have h : ∀ rows ∈ [Data.bengAsBeforeConsonant, Data.bengBnBeforeConsonant,
      Data.bengAsAfterConsonant, Data.bengBnAfterConsonant],
      rows.all (fun p => textB p.1 && textB p.2 && !p.1.isEmpty) = true := by decide +kernel
  have k : ∀ rows ∈ [Data.bengAsBeforeConsonant, Data.bengBnBeforeConsonant,
      Data.bengAsAfterConsonant, Data.bengBnAfterConsonant], TextRules rows := by
    intro rows hr p hp
    have := List.all_eq_true.1 (h rows hr) p hp
    simp only [Bool.and_eq_true] at this
    exact ⟨(textB_iff _).1 this.1.1, (textB_iff _).1 this.1.2, by simpa using this.2⟩
  exact ⟨k _ (by simp), k _ (by simp), k _ (by simp), k _ (by simp)⟩

/-! ## ISO -/

def rowTextB (p : Rule) : Bool := textB p.1 && textB p.2

def isoTextB (d : BrahmicData) : Bool :=
  (d.consonant ++ d.vowelSign ++ d.vowel ++ d.vowelLength ++ d.coda ++ d.deadConsonant ++
    d.standalone ++ d.subjoined ++ Data.commonSymbol).all rowTextB &&
  (d.inherent ++ d.virama).all fun p => textB p.1

theorem isoTextB_all : Data.scripts.all isoTextB = true := by decide +kernel

theorem isoTables_text {d : BrahmicData} (hd : d ∈ Data.scripts) : IsoTables textChar d := by
  have := List.all_eq_true.1 isoTextB_all d hd
  rw [isoTextB, Bool.and_eq_true, List.all_eq_true, List.all_eq_true] at this
  refine ⟨fun p hp => ?_, fun p hp => (textB_iff _).1 (this.2 p hp), ⟨rfl, by decide⟩,
    ⟨rfl, by decide⟩, ⟨rfl, by decide⟩⟩
  have := this.1 p hp
  rw [rowTextB, Bool.and_eq_true] at this
  exact ⟨(textB_iff _).1 this.1, (textB_iff _).1 this.2⟩

theorem iso_lifts {d : BrahmicData} (hd : d ∈ Data.scripts) :
    ∃ R Rb, nfcFst d textChar = some R ∧ byteFstFromRules d.nfc = some Rb ∧
      (WLifts textChar (fromScript d R) (byteFromScript d Rb) ∧
        WKeeps textChar (fromScript d R)) ∧
      (WLifts textChar (toScript d R) (byteToScript d Rb) ∧ WKeeps textChar (toScript d R)) := by
  have tab := List.all_eq_true.1 tablesTextB_all d hd
  simp only [tablesTextB, Bool.and_eq_true, List.all_eq_true, List.mem_append] at tab
  have hrules : TextRules d.nfc := fun p hp =>
    have := tab.1.1.1 p (Or.inl hp)
    ⟨(textB_iff _).1 this.1.1, (textB_iff _).1 this.1.2, by simpa using this.2⟩
  have ov := brahmicToIso_over (isoTables_text hd)
  have li := wLifts_encW textChar_encodable ov
  have lo := wLifts_encW (W := WRel.inv (brahmicToIso d)) textChar_encodable
    (fun s t w h => (ov t s w h).symm)
  rw [← byteBrahmicToIso_eq] at li
  rw [← encW_inv, ← byteBrahmicToIso_eq] at lo
  have ki : WKeeps textChar (brahmicToIso d) := fun s t w _ h => (ov s t w h).2
  have ko : WKeeps textChar (WRel.inv (brahmicToIso d)) := fun s t w _ h => (ov t s w h).1
  rcases rules_lift hrules textChar_encodable (fun _ h => h) with h | ⟨R, Rb, h1, h2, h3, h4⟩
  · obtain ⟨R, _, hR, _⟩ := C30_nfc hd
    rw [nfcFst, h.1] at hR; cases hR
  · refine ⟨R, Rb, h1, h2, ⟨?_, ?_⟩, ⟨?_, ?_⟩⟩
    · exact (wLifts_ofRel h3).comp li (wKeeps_ofRel h4)
    · exact (wKeeps_ofRel h4).comp ki
    · exact lo.comp (wLifts_ofRel h3) ko
    · exact ko.comp (wKeeps_ofRel h4)

/-- C97 for the conversion to and from ISO of every script: the byte-mode grammars, which the API
loads, convert the bytes of a text to the bytes of its conversions, at the same cost. -/
theorem C97_iso {d : BrahmicData} (hd : d ∈ Data.scripts) :
    ∃ R Rb, nfcFst d textChar = some R ∧ byteFstFromRules d.nfc = some Rb ∧
      WAgreeOnText (fromScript d R) (byteFromScript d Rb) ∧
      WAgreeOnText (toScript d R) (byteToScript d Rb) := by
  obtain ⟨R, Rb, h1, h2, hf, ht⟩ := iso_lifts hd
  exact ⟨R, Rb, h1, h2, wAgree_of_lifts hf.1 hf.2, wAgree_of_lifts ht.1 ht.2⟩

/-! ## Fixed rules -/

theorem fixed_text : TextRules Data.mlymFixed := by
  have h : Data.mlymFixed.all (fun p => textB p.1 && textB p.2 && !p.1.isEmpty) = true := by
    decide +kernel
  intro p hp
  have := List.all_eq_true.1 h p hp
  simp only [Bool.and_eq_true] at this
  exact ⟨(textB_iff _).1 this.1.1, (textB_iff _).1 this.1.2, by simpa using this.2⟩

theorem ascii_text (c : Nat) (h : asciiInput c) : textChar c := by
  obtain ⟨h, _, _⟩ := h
  refine ⟨(Utf8.isScalar_iff c).2 (by omega), by omega⟩

theorem joiner_text (c : Nat) (h : c ∈ joiners) : textChar c := by
  simp only [joiners, List.mem_cons, List.not_mem_nil, or_false] at h
  rcases h with rfl | rfl | rfl <;> exact ⟨rfl, by decide⟩

theorem fixedSigma_text {rules : List Rule} (hr : TextRules rules) (c : Nat)
    (h : fixedSigma rules c) : textChar c := by
  rcases h with h | h | h
  · obtain ⟨p, hp, hc⟩ := List.mem_flatMap.1 h
    rcases List.mem_append.1 hc with hc | hc
    · exact (hr p hp).1 c hc
    · exact (hr p hp).2.1 c hc
  · exact ascii_text c h
  · exact joiner_text c h

/-- C97 for the fixed rule romanization of Malayalam. -/
theorem C97_fixed :
    ∃ R Rb, nfcFst Data.mlym textChar = some R ∧ byteFstFromRules Data.mlym.nfc = some Rb ∧
      WAgreeOnText (fixedFst Data.mlymFixed Data.mlym R)
        (byteFixedFst Data.mlymFixed Data.mlym Rb) := by
  obtain ⟨R, Rb, h1, h2, _, ht⟩ := iso_lifts (d := Data.mlym) (by simp [Data.scripts])
  refine ⟨R, Rb, h1, h2, ?_⟩
  have hr := fixed_text
  have sl := sets_lift (sets := Data.mlymFixed.map fun r => [r]) (σ := fixedSigma Data.mlymFixed)
    textChar_encodable (fixedSigma_text hr) (by
      intro st hst
      obtain ⟨r, hr', rfl⟩ := List.mem_map.1 hst
      refine goodRel_textRules fun p hp => ?_
      rw [List.mem_singleton.1 hp]
      exact hr r hr')
  have al := lifts_texts (σ := asciiInput) textChar_encodable ascii_text
  have ak : ∀ s t, Over textChar s → asciiAcceptor s t → Over textChar t := by
    rintro s t hs ⟨rfl, _⟩; exact hs
  have cl : Lifts textChar (Rel.comp asciiAcceptor (fixedRuleFst Data.mlymFixed))
      (Rel.comp byteAsciiAcceptor (byteFixedRuleFst Data.mlymFixed)) := al.comp sl.1 ak
  have ck : ∀ s t, Over textChar s → Rel.comp asciiAcceptor (fixedRuleFst Data.mlymFixed) s t →
      Over textChar t := by
    rintro s t hs ⟨m, h1, h2⟩; exact sl.2 m t (ak s m hs h1) h2
  exact wAgree_of_lifts ((wLifts_ofRel cl).comp ht.1 (wKeeps_ofRel ck)) ((wKeeps_ofRel ck).comp ht.2)

/-! ## Reading normalization -/

theorem reading_text : ∀ g ∈ readingGrammars, TextRules g.rules := by
  have h : readingGrammars.all (fun g => g.rules.all
      (fun p => textB p.1 && textB p.2 && !p.1.isEmpty)) = true := by decide +kernel
  intro g hg p hp
  have := List.all_eq_true.1 (List.all_eq_true.1 h g hg) p hp
  simp only [Bool.and_eq_true] at this
  exact ⟨(textB_iff _).1 this.1.1, (textB_iff _).1 this.1.2, by simpa using this.2⟩

/-- C97 for the reading normalization of the Brahmic scripts and of Hindi. -/
theorem C97_reading {g : ReadingGrammar} (hg : g ∈ readingGrammars) :
    ∃ R Rb, g.fst textChar = some R ∧ g.byteFst = some Rb ∧ AgreeOnText R Rb := by
  have ht := reading_text g hg
  obtain ⟨R₀, hR₀, _⟩ := C75_reading_function.1 g hg textChar fun p hp => (ht p hp).2.1
  have hid := lifts_sigmaStar textChar_encodable sigmaLifts_text
  have hidk : ∀ s t, Over textChar s → Rel.sigmaStar textChar s t → Over textChar t := by
    rintro s t hs ⟨rfl, _⟩; exact hs
  refine ⟨R₀, ?_⟩
  simp only [readingGrammars, List.mem_cons, List.not_mem_nil, or_false] at hg
  rcases rules_lift ht textChar_encodable (fun _ h => h) with h | ⟨R, Rb, h1, h2, h3, h4⟩
  · exfalso
    rcases hg with rfl | rfl | rfl | rfl
    all_goals
      simp only [ReadingGrammar.fst, ReadingGrammar.rules, readingNormFile, readingHi, readingBeng,
        readingLepc, readingMlym] at hR₀ h
      rw [h.1] at hR₀
      cases hR₀
  · rcases hg with rfl | rfl | rfl | rfl
    · simp only [ReadingGrammar.fst, ReadingGrammar.byteFst, ReadingGrammar.rules, readingNormFile,
        byteReadingNormFile, readingHi] at hR₀ h1 h2 ⊢
      rw [h1] at hR₀ ⊢
      rw [h2]
      refine ⟨_, hR₀, rfl, ?_⟩
      simp only [Option.some.injEq] at hR₀
      subst hR₀
      exact agree_of_lifts (hid.comp h3 hidk)
    all_goals
      simp only [ReadingGrammar.fst, ReadingGrammar.byteFst, ReadingGrammar.rules, readingNormFile,
        byteReadingNormFile, readingBeng, readingLepc, readingMlym] at hR₀ h1 h2 ⊢
      rw [h1] at hR₀ ⊢
      rw [h2]
      refine ⟨_, hR₀, rfl, ?_⟩
      simp only [Option.some.injEq] at hR₀
      subst hR₀
      exact agree_of_lifts h3

/-! ## Abjads and alphabets -/

def abjadTextB (rows : List Rule) : Bool :=
  rows.all fun p => textB p.1 && textB p.2 && !p.1.isEmpty

theorem abjadTextB_iff {rows : List Rule} (h : abjadTextB rows = true) : TextRules rows := by
  intro p hp
  have := List.all_eq_true.1 h p hp
  simp only [Bool.and_eq_true] at this
  exact ⟨(textB_iff _).1 this.1.1, (textB_iff _).1 this.1.2, by simpa using this.2⟩

theorem arab_text : TextRules Data.arabNfc ∧ TextRules Data.arabPresentationForms ∧
    TextRules Data.arabReversibleRoman ∧ TextRules Data.arabVisualNorm := by
  have h : (abjadTextB Data.arabNfc && abjadTextB Data.arabPresentationForms &&
      abjadTextB Data.arabReversibleRoman && abjadTextB Data.arabVisualNorm) = true := by
    decide +kernel
  simp only [Bool.and_eq_true] at h
  exact ⟨abjadTextB_iff h.1.1.1, abjadTextB_iff h.1.1.2, abjadTextB_iff h.1.2, abjadTextB_iff h.2⟩

theorem abjadLang_text {l : AbjadData} (hl : l ∈ Data.abjadLangs) :
    TextRules l.readingNorm ∧ TextRules l.visualNorm ∧ TextRules l.finalIsolated ∧
      TextRules l.isolated ∧ TextRules l.nonfinal := by
  have h : Data.abjadLangs.all (fun l => abjadTextB l.readingNorm && abjadTextB l.visualNorm &&
      abjadTextB l.finalIsolated && abjadTextB l.isolated && abjadTextB l.nonfinal) = true := by
    decide +kernel
  have := List.all_eq_true.1 h l hl
  simp only [Bool.and_eq_true] at this
  exact ⟨abjadTextB_iff this.1.1.1.1, abjadTextB_iff this.1.1.1.2, abjadTextB_iff this.1.1.2,
    abjadTextB_iff this.1.2, abjadTextB_iff this.2⟩

theorem abjadSigma_text (c : Nat) (h : Abjad.sigma c) : textChar c := by
  have tab : ∀ {rows : List Rule}, TextRules rows → c ∈ Abjad.tableChars rows → textChar c := by
    intro rows hr h
    obtain ⟨p, hp, hc⟩ := List.mem_flatMap.1 h
    rcases List.mem_append.1 hc with hc | hc
    · exact (hr p hp).1 c hc
    · exact (hr p hp).2.1 c hc
  rcases h with h | h | h | ⟨l, hl, h⟩ | h | h
  · exact tab arab_text.1 h
  · exact tab arab_text.2.1 h
  · exact tab arab_text.2.2.1 h
  · obtain ⟨h1, h2, h3, h4, h5⟩ := abjadLang_text hl
    rcases h with h | h | h | h | h
    · exact tab h1 h
    · exact tab h2 h
    · exact tab h3 h
    · exact tab h4 h
    · exact tab h5 h
  · exact ascii_text c h
  · exact joiner_text c (by simpa [joiners] using h)

theorem rulesOver_lift {rules : List Rule} (h : TextRules rules) {σ : Nat → Prop}
    (hσ : ∀ c, σ c → textChar c) :
    (fstFromRules rules σ = none ∧ byteFstFromRulesOver rules σ = none) ∨
    ∃ R Rb, fstFromRules rules σ = some R ∧ byteFstFromRulesOver rules σ = some Rb ∧
      Lifts textChar R Rb ∧ ∀ s t, Over textChar s → R s t → Over textChar t := by
  unfold fstFromRules byteFstFromRulesOver
  cases hp : partitionUnordered rules with
  | ok sets =>
    right
    have := sets_lift (sets := sets) textChar_encodable hσ fun st hst => goodRel_textRules
      fun p hp' => h p (mem_sets_rules hp hst hp')
    exact ⟨_, _, rfl, rfl, this.1, this.2⟩
  | valueError => exact Or.inl ⟨rfl, rfl⟩
  | fuel => exact Or.inl ⟨rfl, rfl⟩

/-- C97 for the abjads: NFC, and conversion to and from the reversible romanization. -/
theorem C97_arab :
    ∃ R Rb F Fb, Abjad.nfcFst Abjad.sigma = some R ∧ Abjad.byteNfcFst Abjad.sigma = some Rb ∧
      Abjad.fromArab Abjad.sigma = some F ∧ Abjad.byteFromArab Abjad.sigma = some Fb ∧
      AgreeOnText R Rb ∧ AgreeOnText F Fb ∧ AgreeOnText Abjad.toArab Abjad.byteToArab := by
  obtain ⟨R, F, hR, hF, _⟩ := C23_reversible
  have ov : ∀ s t, Abjad.romanFst s t → Over textChar s ∧ Over textChar t := by
    intro s t h
    induction h with
    | nil => exact ⟨over_nil, over_nil⟩
    | cons h _ ih =>
      have := arab_text.2.2.1 _ h
      exact ⟨over_app this.1 ih.1, over_app this.2.1 ih.2⟩
  have e : Abjad.byteRomanFst = encRel Abjad.romanFst := by
    unfold Abjad.byteRomanFst Abjad.romanFst
    rw [encRel_stringMap, encRel_star]
  have l1 := lifts_encRel textChar_encodable ov
  have l2 := lifts_encRel (R := Rel.inv Abjad.romanFst) textChar_encodable
    fun s t h => (ov t s h).symm
  rw [← e] at l1
  rw [← encRel_inv, ← e] at l2
  rcases rulesOver_lift arab_text.1 abjadSigma_text with h | ⟨N, Nb, h1, h2, h3, h4⟩
  · rw [Abjad.nfcFst, h.1] at hR; cases hR
  · refine ⟨N, Nb, Rel.comp N Abjad.romanFst, Rel.comp Nb Abjad.byteRomanFst, h1, h2, ?_, ?_,
      agree_of_lifts h3, agree_of_lifts (h3.comp l1 h4), agree_of_lifts l2⟩
    · unfold Abjad.fromArab Abjad.nfcFst; rw [h1]; rfl
    · unfold Abjad.byteFromArab Abjad.byteNfcFst; rw [h2]; rfl

/-- C97 for the reading normalization of the abjad languages. -/
theorem C97_arab_reading {l : AbjadData} (hl : l ∈ Data.abjadLangs) :
    ∃ R Rb, Abjad.readingNormFst l Abjad.sigma = some R ∧
      Abjad.byteReadingNormFst l Abjad.sigma = some Rb ∧ AgreeOnText R Rb := by
  obtain ⟨R, hR, _⟩ := C75_reading_function.2 l hl Abjad.sigma (reading_writes.2 l hl)
  rcases rulesOver_lift (abjadLang_text hl).1 abjadSigma_text with h | ⟨N, Nb, h1, h2, h3, _⟩
  · rw [Abjad.readingNormFst, h.1] at hR; cases hR
  · exact ⟨N, Nb, h1, h2, agree_of_lifts h3⟩

theorem files_lift (files : List (List Rule)) (h : ∀ f ∈ files, TextRules f) {Rs : List Rel}
    (hR : Abjad.fstsFromFiles Abjad.sigma files = some Rs) :
    ∃ Rbs, Abjad.byteFstsFromFiles Abjad.sigma files = some Rbs ∧ Rs.length = Rbs.length ∧
      ∀ p ∈ Rs.zip Rbs, Lifts textChar p.1 p.2 ∧
        ∀ s t, Over textChar s → p.1 s t → Over textChar t := by
  induction files generalizing Rs with
  | nil =>
    cases hR
    exact ⟨[], rfl, rfl, by simp⟩
  | cons f files ih =>
    rcases rulesOver_lift (h f (by simp)) abjadSigma_text with hn | ⟨N, Nb, h1, h2, h3, h4⟩
    · simp only [Abjad.fstsFromFiles, hn.1] at hR; cases hR
    · simp only [Abjad.fstsFromFiles, h1] at hR
      cases hf : Abjad.fstsFromFiles Abjad.sigma files with
      | none => rw [hf] at hR; cases hR
      | some Rs' =>
        rw [hf] at hR
        cases hR
        obtain ⟨Rbs, e, hl, hp⟩ := ih (fun f hf => h f (List.mem_cons_of_mem _ hf)) hf
        refine ⟨Nb :: Rbs, by simp only [Abjad.byteFstsFromFiles, h2, e], by simp [hl], ?_⟩
        intro p hp'
        rw [List.zip_cons_cons, List.mem_cons] at hp'
        rcases hp' with rfl | hp'
        · exact ⟨h3, h4⟩
        · exact hp p hp'

theorem zip_append_mem {a b c e : List Rel} (h : a.length = b.length) {p : Rel × Rel}
    (hp : p ∈ (a ++ c).zip (b ++ e)) : p ∈ a.zip b ∨ p ∈ c.zip e := by
  rw [List.zip_append h, List.mem_append] at hp
  exact hp

/-- C97 for the visual normalization of the abjad languages: the rules for the end of a word and for
letters before others see the same positions in the bytes. -/
theorem C97_arab_visual {l : AbjadData} (hl : l ∈ Data.abjadLangs) :
    ∃ R Rb, Abjad.visualNormFst l Abjad.sigma = some R ∧
      Abjad.byteVisualNormFst l Abjad.sigma = some Rb ∧ AgreeOnText R Rb := by
  obtain ⟨R, _, _, _, _, hR, _⟩ := C26_total_positional l hl
  obtain ⟨_, tv, tf, ti, tn⟩ := abjadLang_text hl
  have enc : ∀ c, Abjad.sigma c → encodable c := fun c hc => textChar_encodable c (abjadSigma_text c hc)
  refine ⟨R, ?_⟩
  unfold Abjad.visualNormFst at hR
  cases hc : Abjad.scriptCommonFsts Abjad.sigma with
  | none => rw [hc] at hR; cases hR
  | some Cs =>
    rw [hc] at hR
    obtain ⟨Cbs, eC, hlen, hC⟩ := files_lift
      [Data.arabPresentationForms, Data.arabNfc, Data.arabVisualNorm] (by
        intro f hf
        simp only [List.mem_cons, List.not_mem_nil, or_false] at hf
        rcases hf with rfl | rfl | rfl
        · exact arab_text.2.1
        · exact arab_text.1
        · exact arab_text.2.2.2) hc
    rcases rulesOver_lift tv abjadSigma_text with hn | ⟨A, Ab, h1, h2, h3, h4⟩
    · unfold Abjad.langFsts at hR; rw [hn.1] at hR; cases hR
    · unfold Abjad.langFsts at hR
      rw [h1] at hR
      simp only [Abjad.composeAll, Option.some.injEq] at hR
      have hRv : Abjad.visualNormFst l Abjad.sigma = some R := by
        unfold Abjad.visualNormFst Abjad.langFsts
        rw [hc, h1]
        simp only [Abjad.composeAll, hR]
      refine ⟨composeRels (fun _ _ => False) (Cbs ++ [Ab, Abjad.byteNonfinalRewrite l.nonfinal
          Abjad.sigma, Abjad.byteFinalRewrite l.finalIsolated Abjad.sigma,
          Abjad.byteIsolatedRewrite (l.finalIsolated ++ l.isolated) Abjad.sigma]), hRv, ?_, ?_⟩
      · unfold Abjad.byteVisualNormFst Abjad.byteScriptCommonFsts Abjad.byteLangFsts
        rw [eC, h2]
        rfl
      · rw [← hR]
        refine agree_of_lifts (lifts_compose (V := textChar) (D := fun _ _ => False)
          (Db := fun _ _ => False) (by intro s b _; simp) _ _ (by simp [hlen]) ?_)
        intro p hp
        rcases zip_append_mem hlen hp with hp | hp
        · exact hC p hp
        · simp only [List.zip_cons_cons, List.zip_nil_right, List.mem_cons, List.not_mem_nil,
            or_false] at hp
          have keep : ∀ {τ : Rel} {C : Ctx} (s t : Str), Over textChar s →
              Rewrite τ Abjad.sigma C s t → Over textChar t :=
            fun s t _ h c hc => abjadSigma_text c (h.2.1 c hc)
          rcases hp with rfl | rfl | rfl | rfl
          · exact ⟨h3, h4⟩
          · refine ⟨?_, keep⟩
            simp only [Abjad.nonfinalRewrite, Abjad.byteNonfinalRewrite]
            rw [encRel_stringMap]
            exact rewriteIn_lifts (goodRel_textRules tn)
              ⟨fun _ _ => Iff.rfl, fun s hs => startsIn_sigma enc hs⟩ textChar_encodable
              abjadSigma_text
          · refine ⟨?_, keep⟩
            simp only [Abjad.finalRewrite, Abjad.byteFinalRewrite]
            rw [encRel_stringMap]
            exact rewriteIn_lifts (goodRel_textRules tf)
              ⟨fun s hs => endsIn_sigma enc hs, fun s hs => encText_nil_iff hs⟩ textChar_encodable
              abjadSigma_text
          · refine ⟨?_, keep⟩
            simp only [Abjad.isolatedRewrite, Abjad.byteIsolatedRewrite]
            rw [encRel_stringMap]
            refine rewriteIn_lifts (goodRel_textRules ?_)
              ⟨fun s hs => encText_nil_iff hs, fun s hs => encText_nil_iff hs⟩ textChar_encodable
              abjadSigma_text
            intro p hp
            rcases List.mem_append.1 hp with hp | hp
            · exact tf p hp
            · exact ti p hp

/-- The hypotheses are met by Gujarati, Hindi reading and Urdu. -/
example : Data.gujr ∈ Data.scripts ∧ readingHi ∈ readingGrammars ∧ Data.arabUr ∈ Data.abjadLangs := by
  refine ⟨by simp [Data.scripts], by simp [readingGrammars], by simp [Data.abjadLangs]⟩

/-- The bytes of Gujarati KA + AA are converted to the bytes of `kā` by the byte-mode grammar. -/
example : ∃ Rb, byteFstFromRules Data.gujr.nfc = some Rb ∧
    byteFromScript Data.gujr Rb (utf8 [0xA95, 0xABE]) (utf8 [0x6B, 0x101]) 0 := by
  obtain ⟨R, Rb, h1, h2, h3, _⟩ := C97_iso (d := Data.gujr) (by simp [Data.scripts])
  refine ⟨Rb, h2, ?_⟩
  have ho : Over textChar [0xA95, 0xABE] := by rw [← textB_iff]; rfl
  have hR : R [0xA95, 0xABE] [0xA95, 0xABE] := by
    obtain ⟨R', hR', g, _⟩ := nfc_graph (d := Data.gujr) (σ := textChar) (by simp [Data.scripts])
      (goodSigma_text (by simp [Data.scripts])).2
    rw [h1] at hR'; cases hR'
    rw [g]
    exact ⟨ho, by decide +kernel⟩
  exact (h3.1 _ _ 0 ho).2
    ⟨_, by rw [← textB_iff]; rfl, rfl, _, 0, 0, ⟨hR, rfl⟩, Iso.gujr_ka, rfl⟩

end Nisaba.Props
