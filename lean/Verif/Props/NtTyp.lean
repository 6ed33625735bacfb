import Verif.Lemmas.NtCompose
/-!
# natural_translit: from the ISO romanization to graphemes (C88)
-/
namespace Nisaba.Props
open Nisaba Nisaba.NT

/-- The ISO text of a sequence of characters, as labels of a grammar built in mode `m`. -/
def isoText (m : Mode) (cs : List Chr) : Str := m.labels (cs.flatMap Chr.glyph)

/-- `iso_to_typ` composed of its rules. -/
def isoToTyp (m : Mode) : Rel := compose (isoToTypRules m)

theorem typ_chrs {ts : List Tok} (h : Typ ts) :
    ∃ ds : List Chr, (∀ d ∈ ds, d ∈ Brh.CHAR) ∧ ts = ds.map (fun d => Tok.g d.typ) ∧
      enc ts = ds.flatMap Chr.gr ∧ ts.flatMap gl = ds.flatMap Chr.glyph := by
  induction ts with
  | nil => exact ⟨[], (fun d hd => by cases hd), rfl, rfl, rfl⟩
  | cons a ts ih =>
    obtain ⟨c, hc, rfl⟩ := h a (by simp)
    obtain ⟨ds, h1, h2, h3, h4⟩ := ih fun b hb => h b (by simp [hb])
    refine ⟨c :: ds, ?_, by rw [h2]; rfl, ?_, ?_⟩
    · intro d hd
      rw [List.mem_cons] at hd
      rcases hd with rfl | hd
      exacts [hc, h1 d hd]
    · rw [enc_cons, h3]; rfl
    · rw [List.flatMap_cons, h4, List.flatMap_cons]
      rw [show gl (.g c.typ) = c.glyph from (char_ok hc).1]

/-- C88. A text of the inventory has exactly one grapheme string.  It spells the text, with the sign
`.` of independent vowels in front of it in case the text starts with a vowel sign; it does not start
with a vowel sign other than `aan`; and no composite character is left in parts. -/
theorem iso_to_typ_unique (m : Mode) (cs : List Chr) (h : ∀ c ∈ cs, c ∈ Brh.SINGLE_POINT) :
    ∃ ds : List Chr, (∀ d ∈ ds, d ∈ Brh.CHAR) ∧
      (∀ z, isoToTyp m (isoText m cs) z ↔ z = ds.flatMap Chr.gr) ∧
      (ds.flatMap Chr.glyph = cs.flatMap Chr.glyph ∨
        ds.flatMap Chr.glyph = a!"." ++ cs.flatMap Chr.glyph ∧
          ∃ v ∈ Brh.VOWEL_SIGN, v.typ ≠ a!"aan" ∧ v.glyph <+: cs.flatMap Chr.glyph) ∧
      (∀ d ∈ ds.head?, (∃ v ∈ Brh.VOWEL_SIGN, v.typ = d.typ) → d.typ = a!"aan") ∧
      ∀ c ∈ Brh.TWO_POINT ++ Brh.LONG_VOCALIC, ¬ c.cmp <:+: ds.flatMap Chr.gr := by
  obtain ⟨ts, h1, h2, h3, h4, h5⟩ := iso_full m h
  obtain ⟨ds, d1, d2, d3, d4⟩ := typ_chrs h1.1
  rw [d4] at h5
  refine ⟨ds, d1, fun z => ⟨fun hz => by rw [← d3]; exact h4 z hz, fun hz => ?_⟩, h5, ?_, ?_⟩
  · rw [hz, ← d3]; exact h3
  · rintro d hd ⟨v, hv, he⟩
    cases ds with
    | nil => cases hd
    | cons d' ds =>
      injection hd with hd
      subst hd
      have := h1.2 d'.typ (by rw [d2]; rfl)
      rw [isVs, Bool.and_eq_false_iff] at this
      rcases this with this | this
      · exfalso
        rw [Bool.eq_false_iff] at this
        exact this (List.any_eq_true.2 ⟨v, hv, seq_eq.2 he⟩)
      · rw [Bool.not_eq_false'] at this
        exact seq_eq.1 this
  · intro c hc
    rw [← d3]
    have hpl := h1.1.plain
    have chk : ∀ {fs : List (List Tok)} {ds : List Chr}, (tCheck ds && freshCheck fs ds) = true →
        tCheck ds = true := fun h => (Bool.and_eq_true _ _ ▸ h).1
    have sub : ∀ f, f ∈ cmpF Brh.LONG_VOCALIC ∨ f ∈ cmpF Brh.TWO_POINT_SIGN ∨
        f ∈ cmpF Brh.INDEPENDENT_VOWEL ∨ f ∈ cmpF Brh.COMPOSITE_CONSONANT ∨
        f ∈ cmpF (Brh.OM ++ Brh.CND) → f ∈ F6 := by
      intro f hf
      simp only [F6, F5, F4, F2, F1, List.mem_append]
      tauto
    simp only [Brh.TWO_POINT, List.mem_append] at hc
    rcases hc with ((((hc | hc) | hc) | hc) | hc) | hc
    · exact noFac_text (chk tc2) (fun f hf => sub f (.inr (.inl hf))) hpl h2 hc
    · exact noFac_text (chk tc4) (fun f hf => sub f (.inr (.inr (.inl hf)))) hpl h2 hc
    · exact noFac_text (chk tc5) (fun f hf => sub f (.inr (.inr (.inr (.inl hf))))) hpl h2 hc
    · exact noFac_text (chk tc6) (fun f hf => sub f (.inr (.inr (.inr (.inr hf))))) hpl h2
        (List.mem_append.2 (.inr hc))
    · exact noFac_text (chk tc6) (fun f hf => sub f (.inr (.inr (.inr (.inr hf))))) hpl h2
        (List.mem_append.2 (.inl hc))
    · exact noFac_text (chk tc1) (fun f hf => sub f (.inl hf)) hpl h2 hc

/-- C88. Only texts of the inventory are read. -/
theorem iso_to_typ_domain (m : Mode) (x z : Str) (h : isoToTyp m x z) :
    ∃ cs : List Chr, (∀ c ∈ cs, c ∈ Brh.SINGLE_POINT) ∧ x = isoText m cs := by
  rw [isoToTyp, ← List.append_nil (isoToTypRules m)] at h
  exact iso_only h

/-- The graphemes of a string are readable. -/
theorem gr_inj {ds es : List Chr} (hd : ∀ d ∈ ds, d ∈ Brh.CHAR) (he : ∀ d ∈ es, d ∈ Brh.CHAR)
    (h : ds.flatMap Chr.gr = es.flatMap Chr.gr) : ds.flatMap Chr.glyph = es.flatMap Chr.glyph := by
  obtain ⟨d1, d2, d3⟩ := read_typ hd
  obtain ⟨e1, e2, e3⟩ := read_typ he
  rw [d1, e1] at h
  rw [← d3, ← e3, enc_inj d2.plain e2.plain h]

/-- C88. Texts with the same grapheme string are the same up to the sign `.` in front of them. -/
theorem iso_to_typ_injective (m : Mode) (cs ds : List Chr) (hc : ∀ c ∈ cs, c ∈ Brh.SINGLE_POINT)
    (hd : ∀ c ∈ ds, c ∈ Brh.SINGLE_POINT) (z : Str) (h : isoToTyp m (isoText m cs) z)
    (h' : isoToTyp m (isoText m ds) z) :
    cs.flatMap Chr.glyph = ds.flatMap Chr.glyph ∨
      cs.flatMap Chr.glyph = a!"." ++ ds.flatMap Chr.glyph ∨
      ds.flatMap Chr.glyph = a!"." ++ cs.flatMap Chr.glyph := by
  obtain ⟨es, e1, e2, e3, _⟩ := iso_to_typ_unique m cs hc
  obtain ⟨fs, f1, f2, f3, _⟩ := iso_to_typ_unique m ds hd
  have hg := gr_inj e1 f1 (((e2 z).1 h).symm.trans ((f2 z).1 h'))
  rcases e3 with e3 | ⟨e3, _⟩ <;> rcases f3 with f3 | ⟨f3, _⟩
  · exact .inl (e3.symm.trans (hg.trans f3))
  · exact .inr (.inl (e3.symm.trans (hg.trans f3)))
  · exact .inr (.inr (f3.symm.trans (hg.symm.trans e3)))
  · exact .inl (List.append_cancel_left (e3.symm.trans (hg.trans f3)))

/-- The stages after the reading of glyphs do not depend on the mode. -/
theorem iso_front (m : Mode) {cs : List Chr} (h : ∀ c ∈ cs, c ∈ Brh.SINGLE_POINT) (rs : List Rel)
    (z : Str) : compose (isoToTypRules m ++ rs) (isoText m cs) z ↔
      compose ((isoToTypRules .utf8).tail ++ rs) (cs.flatMap Chr.gr) z := by
  have r0 := (readGlyph_iff m Brh.SINGLE_POINT _ _).2 ⟨cs, h, rfl, rfl⟩
  have e : isoToTypRules m = readGlyph m Brh.SINGLE_POINT :: (isoToTypRules .utf8).tail := rfl
  rw [e, List.cons_append, compose_cons]
  constructor
  · rintro ⟨y, h1, h2⟩
    rwa [← readGlyph_det m _ _ _ h1 r0]
  · intro h2; exact ⟨_, r0, h2⟩

/-- C88. The grammar of bytes and that of code points read a text alike. -/
theorem iso_to_typ_modes (cs : List Chr) (h : ∀ c ∈ cs, c ∈ Brh.SINGLE_POINT) (z : Str) :
    isoToTyp .byte (isoText .byte cs) z ↔ isoToTyp .utf8 (isoText .utf8 cs) z := by
  have a := iso_front .byte h [] z
  have b := iso_front .utf8 h [] z
  rw [List.append_nil] at a b
  exact a.trans b.symm

section
set_option maxRecDepth 100000
/-- The text `aka` meets the hypotheses: it starts with a vowel sign. -/
example : (∀ c ∈ [Brh.sp a!"A", Brh.sp a!"K", Brh.sp a!"A"], c.alias ∈ Brh.SINGLE_POINT.map Chr.alias) ∧
    [Brh.sp a!"A", Brh.sp a!"K", Brh.sp a!"A"].flatMap Chr.glyph = a!"aka" := by decide +kernel
end

end Nisaba.Props
