import Verif.Props.NtTyp
import Verif.Lemmas.NtEval
/-!
# natural_translit: pronunciations, romanizations and transcriptions (C89-C91)
-/
namespace Nisaba.Props
open Nisaba Nisaba.NT

/-- Texts of the ISO romanization. -/
def IsIso (cs : List Chr) : Prop := ∀ c ∈ cs, c ∈ Brh.SINGLE_POINT

/-- The letters of a romanization are the lowercase ASCII letters. -/
def LowerCase (y : Str) : Prop := ∀ c ∈ y, 97 ≤ c ∧ c ≤ 122

/-- A text has exactly one pronunciation: a sequence of alignments whose left sides are the graphemes
of the text. -/
def OnePronunciation (txn : List Rel) (m : Mode) (cs : List Chr) : Prop :=
  ∃ z, (∀ z', compose (G2p.isoToTxn m ++ txn) (isoText m cs) z' ↔ z' = z) ∧ Spec.Aligned z ∧
    isoToTyp m (isoText m cs) (Spec.leftSides z)

/-- A text has exactly one output, which has a property, and only ISO texts have an output. -/
def OneOutput (g : Mode → List Rel) (good : Str → Prop) : Prop :=
  (∀ m cs, IsIso cs → ∃ y, good y ∧ ∀ z, compose (g m) (isoText m cs) z ↔ z = y) ∧
  ∀ m x z, compose (g m) x z → ∃ cs, IsIso cs ∧ x = isoText m cs

/-- Outputs of the grammars of bytes and of code points agree. -/
def ModesAgree (g : Mode → List Rel) : Prop :=
  ∀ cs, IsIso cs → ∀ z, compose (g .byte) (isoText .byte cs) z ↔ compose (g .utf8) (isoText .utf8 cs) z

/-- The text `ka`. -/
def textKa : List Chr := [a!"K", a!"A"].map Brh.sp

set_option maxRecDepth 100000 in
theorem textKa_iso : IsIso textKa := spB_iff (by decide +kernel)

set_option maxRecDepth 100000 in
theorem textKa_typ (m : Mode) : isoToTyp m (isoText m textKa) a!"<k><a>" :=
  typB_iff (as := [a!"K", a!"A"]) (s1 := a!"<k><a>") (ts2 := [.g a!"k", .g a!"a"])
    (s4 := a!"<k><a>") (s5 := a!"<k><a>") (by decide +kernel) m

/-- The text `ka` meets the hypotheses of the theorems on all languages. -/
example : IsIso textKa ∧ textKa.flatMap Chr.glyph = a!"ka" := ⟨textKa_iso, by decide +kernel⟩

/-! ## Pronunciations (C89) -/

theorem pron_of {txn : List Rel} {P Q : List Tok → Prop} {cfg : Cfg} (hc : cfg ∈ [M1, M2, M1t])
    (h : StD P Q (compose txn)) (hq : ∀ ts, Q ts → OK cfg ts) {m : Mode} {cs : List Chr}
    (hcs : IsIso cs)
    (hp : ∀ ts, Typ ts → compose (isoToTypRules m) (isoText m cs) (enc ts) → P (ts.flatMap alTok)) :
    OnePronunciation txn m cs := by
  obtain ⟨ts, h1, h2, h3, h4⟩ := isoTxn_stage m hcs
  have hp := hp ts h1.1 h2
  obtain ⟨y, hy⟩ := h.1.2 _ hp
  obtain ⟨us, rfl, hus, hgp⟩ := h.1.1 _ hp y hy
  have hok := hq us hus
  refine ⟨enc us, fun z' => ⟨fun hz => ?_, fun hz => ?_⟩, hok.aligned hc, ?_⟩
  · obtain ⟨u, hu, hz⟩ := (compose_append ..).1 hz
    rw [h4 u hu] at hz
    exact h.2 _ _ _ hz hy
  · rw [hz]
    exact (compose_append ..).2 ⟨_, h3, hy⟩
  · rw [(sides_enc hok.plain).1, hgp, (al_shape h1.1 .s (.inl rfl)).2, typ_enc h1.1]
    exact h2

/-- C89, Telugu. -/
theorem te_pronunciation (m : Mode) (cs : List Chr) (h : IsIso cs) :
    OnePronunciation Te.txn m cs :=
  pron_of (by simp) te_txn (fun _ h => h) h fun _ h1 _ => al_ok (by simp) h1

/-- C89, Kannada. -/
theorem kn_pronunciation (m : Mode) (cs : List Chr) (h : IsIso cs) :
    OnePronunciation Kn.txn m cs :=
  pron_of (by simp) kn_txn (fun _ h => h) h fun _ h1 _ => al_ok (by simp) h1

/-- C89, Hindi. -/
theorem hi_pronunciation (m : Mode) (cs : List Chr) (h : IsIso cs) :
    OnePronunciation Hi.txn m cs :=
  pron_of (by simp) hi_txn (fun _ h => h) h fun _ h1 _ => al_ok (by simp) h1

/-- C89, Marathi. -/
theorem mr_pronunciation (m : Mode) (cs : List Chr) (h : IsIso cs) :
    OnePronunciation Mr.txn m cs :=
  pron_of (by simp) mr_txn (fun _ h => h) h fun _ h1 _ => al_ok (by simp) h1

/-- C89, Bengali. -/
theorem bn_pronunciation (m : Mode) (cs : List Chr) (h : IsIso cs) :
    OnePronunciation Bn.txn m cs :=
  pron_of (by simp) bn_txn (fun _ h => h) h fun _ h1 _ => al_ok (by simp) h1

/-- C89, Tamil. -/
theorem ta_pronunciation (m : Mode) (cs : List Chr) (h : IsIso cs) :
    OnePronunciation Ta.txn m cs :=
  pron_of (by simp) ta_txn (fun _ h => h) h fun _ h1 _ => al_ok (by simp) h1

/-- C89, Malayalam: the left sides are the graphemes of the text, possibly with further graphemes
`<u>`. -/
theorem ml_pronunciation (m : Mode) (cs : List Chr) (h : IsIso cs) :
    ∃ z, (∀ z', compose (G2p.isoToTxn m ++ Ml.txn) (isoText m cs) z' ↔ z' = z) ∧ Spec.Aligned z ∧
      ∃ as bs : List Str, isoToTyp m (isoText m cs) (as.flatMap encloseGrapheme) ∧
        Spec.leftSides z = bs.flatMap encloseGrapheme ∧
        as.Sublist bs ∧ as.filter (· ≠ a!"u") = bs.filter (· ≠ a!"u") := by
  obtain ⟨ts, h1, h2, h3, h4⟩ := isoTxn_stage m h
  have hp : OK M1 (ts.flatMap alTok) := al_ok (by simp) h1.1
  obtain ⟨y, hy⟩ := st_WF_VIRAMA_U.2.1 _ hp
  obtain ⟨us, rfl, hus, hgp⟩ := st_WF_VIRAMA_U.1 _ hp y hy
  obtain ⟨y', hy'⟩ := ml_rest.1.2 _ hus
  obtain ⟨vs, rfl, hvs, hgq⟩ := ml_rest.1.1 _ hus y' hy'
  refine ⟨enc vs, fun z' => ⟨fun hz => ?_, fun hz => ?_⟩, hvs.aligned (cfg := M1) (by simp), ?_⟩
  · rw [ml_eq] at hz
    obtain ⟨u, hu, hz⟩ := (compose_append ..).1 hz
    rw [h4 u hu] at hz
    obtain ⟨v, hv, hz⟩ := (compose_append ..).1 hz
    rw [st_WF_VIRAMA_U.2.2 _ _ _ hv hy] at hz
    exact ml_rest.2 _ _ _ hz hy'
  · rw [hz, ml_eq]
    exact (compose_append ..).2 ⟨_, h3, (compose_append ..).2 ⟨_, hy, hy'⟩⟩
  · refine ⟨ts.flatMap gproj, vs.flatMap gproj, ?_, (sides_enc hvs.plain).1, ?_⟩
    · rw [typ_enc h1.1]; exact h2
    · rw [(al_shape h1.1 .s (.inl rfl)).2] at hgp
      rw [hgq]
      refine ⟨hgp.1, ?_⟩
      have e : ∀ l : List Str, l.filter (· ≠ a!"u") = l.filter (fun s => !seq s a!"u") := by
        intro l
        apply List.filter_congr
        intro s _
        by_cases hs : s = a!"u"
        · subst hs; decide
        · have : seq s a!"u" = false := by rw [Bool.eq_false_iff]; exact fun h => hs (seq_eq.1 h)
          simp [hs, this]
      rw [e, e]
      exact hgp.2

/-- C89, Punjabi: there is a pronunciation, and all of them have the graphemes of the text as left
sides. -/
theorem pa_pronunciation_partial (m : Mode) (cs : List Chr) (h : IsIso cs) :
    (∃ z, compose (G2p.isoToTxn m ++ Pa.txn) (isoText m cs) z) ∧
    ∀ z, compose (G2p.isoToTxn m ++ Pa.txn) (isoText m cs) z →
      Spec.Aligned z ∧ isoToTyp m (isoText m cs) (Spec.leftSides z) := by
  obtain ⟨ts, h1, h2, h3, h4⟩ := isoTxn_stage m h
  have hp : OK M1 (ts.flatMap alTok) := al_ok (by simp) h1.1
  obtain ⟨y, hy⟩ := pa_txn.2 _ hp
  refine ⟨⟨y, (compose_append ..).2 ⟨_, h3, hy⟩⟩, ?_⟩
  intro z hz
  obtain ⟨u, hu, hz⟩ := (compose_append ..).1 hz
  rw [h4 u hu] at hz
  obtain ⟨us, rfl, hus, hgp⟩ := pa_txn.1 _ hp z hz
  refine ⟨hus.aligned (by simp), ?_⟩
  rw [(sides_enc hus.plain).1, hgp, (al_shape h1.1 .s (.inl rfl)).2, typ_enc h1.1]
  exact h2

/-- The graphemes of Gujarati texts without a diphthong. -/
def NoDiphthong (m : Mode) (cs : List Chr) : Prop :=
  ∀ z, isoToTyp m (isoText m cs) z → ∀ s ∈ [a!"ai", a!"au", a!"ai_i", a!"au_i"],
    ¬ encloseGrapheme s <:+: z

theorem noDi_start {m : Mode} {cs : List Chr} (hd : NoDiphthong m cs) {ts : List Tok} (h1 : Typ ts)
    (h2 : compose (isoToTypRules m) (isoText m cs) (enc ts)) : OK M2 (ts.flatMap alTok) := by
  refine al_ok2 h1 fun s hs hm => ?_
  refine hd _ h2 s hs ?_
  obtain ⟨us, vs, rfl⟩ := List.append_of_mem hm
  refine ⟨enc us, enc vs, ?_⟩
  rw [enc_append, enc_cons, List.append_assoc]
  rfl

/-- C89, Gujarati, for texts without a diphthong. -/
theorem gu_pronunciation_partial (m : Mode) (cs : List Chr) (h : IsIso cs) (hd : NoDiphthong m cs) :
    OnePronunciation Gu.txn m cs :=
  pron_of (by simp) gu_txn (fun _ h => h) h fun _ h1 h2 => noDi_start hd h1 h2

/-! ## Romanizations and transcriptions (C90) -/

theorem out_domain {g : Mode → List Rel} (rest : Mode → List Rel)
    (hg : ∀ m, g m = G2p.isoToTxn m ++ rest m) (m : Mode) (x z : Str)
    (h : compose (g m) x z) : ∃ cs, IsIso cs ∧ x = isoText m cs := by
  rw [hg, G2p.isoToTxn, List.append_assoc] at h
  exact iso_only h

theorem out_of {g rest : Mode → List Rel} {P : List Tok → Prop} {good : Str → Prop}
    (hg : ∀ m, g m = G2p.isoToTxn m ++ rest m) (hb : ∀ m, Blk P (rest m) good)
    (hp : ∀ ts, Typ ts → P (ts.flatMap alTok)) : OneOutput g good := by
  refine ⟨fun m cs hcs => ?_, out_domain rest hg⟩
  obtain ⟨y, h1, h2, h3⟩ := whole (m := m) (hb m) hcs fun ts ht _ => hp ts ht
  refine ⟨y, h1, fun z => ?_⟩
  rw [hg]
  exact ⟨h3 z, fun hz => hz ▸ h2⟩

theorem modes_of {g rest : Mode → List Rel} (hg : ∀ m, g m = G2p.isoToTxn m ++ rest m)
    (hr : rest .byte = rest .utf8) : ModesAgree g := by
  intro cs hcs z
  rw [hg, hg, G2p.isoToTxn, G2p.isoToTxn, hr, List.append_assoc, List.append_assoc]
  exact (iso_front .byte hcs _ z).trans (iso_front .utf8 hcs _ z).symm

/-- Printing does not depend on the mode. -/
theorem print_modes : printOnlyLtn .byte = printOnlyLtn .utf8 := by
  have : ∀ c ∈ Ltn.CHARS, Mode.byte.labels c.glyph = Mode.utf8.labels c.glyph := by
    intro c hc
    have h : (Ltn.CHARS.all fun c => seq (Mode.byte.labels c.glyph) (Mode.utf8.labels c.glyph)) = true := by
      set_option maxRecDepth 100000 in decide +kernel
    exact seq_eq.1 (List.all_eq_true.1 h c hc)
  rw [printOnlyLtn, printOnlyLtn, printOnlyGlyph, printOnlyGlyph, printGlyph, printGlyph]
  have e : (Ltn.CHARS.map fun c => cross (str c.tr) (str (Mode.byte.labels c.glyph))) =
      Ltn.CHARS.map fun c => cross (str c.tr) (str (Mode.utf8.labels c.glyph)) :=
    List.map_congr_left fun c hc => by rw [this c hc]
  rw [e]

theorem app3 (a b c : List Rel) : a ++ b ++ c = a ++ (b ++ c) := List.append_assoc ..

/-- C90, Telugu: the romanization PSAF. -/
theorem te_psaf : OneOutput Te.psaf LowerCase :=
  out_of (rest := fun m => Te.txn ++ Rom.TXN_TO_PSAF m) (P := OK M1)
    (fun m => by simp only [Te.psaf, List.append_assoc])
    (fun m => Blk.after te_txn ((psaf_tail m).mono (ok_M1_M1r))) fun _ h => al_ok (by simp) h

theorem te_psaf_modes : ModesAgree Te.psaf :=
  modes_of (rest := fun m => Te.txn ++ Rom.TXN_TO_PSAF m) (fun m => by simp only [Te.psaf, List.append_assoc])
    (by simp only [Rom.TXN_TO_PSAF, print_modes])

/-- C90, Telugu: the romanization PSAC. -/
theorem te_psac : OneOutput Te.psac LowerCase :=
  out_of (rest := fun m => Te.txn ++ Rom.TXN_TO_PSAC m) (P := OK M1)
    (fun m => by simp only [Te.psac, List.append_assoc])
    (fun m => Blk.after te_txn (((psac_tail m)).mono (ok_M1_M1r))) fun _ h => al_ok (by simp) h

theorem te_psac_modes : ModesAgree Te.psac :=
  modes_of (rest := fun m => Te.txn ++ Rom.TXN_TO_PSAC m) (fun m => by simp only [Te.psac, List.append_assoc])
    (by simp only [Rom.TXN_TO_PSAC, print_modes])

/-- C90, Telugu: the natural romanization. -/
theorem te_nat : OneOutput Te.nat LowerCase :=
  out_of (rest := fun m => Te.txn ++ (Rom.TXN_TO_PSA_COMMON ++ Rom.TRANSLIT_BY_PSA ++ printOnlyLtn m)) (P := OK M1)
    (fun m => by simp only [Te.nat, List.append_assoc])
    (fun m => Blk.after te_txn ((nat_tail m).mono ok_M1_M1r)) fun _ h => al_ok (by simp) h

theorem te_nat_modes : ModesAgree Te.nat :=
  modes_of (rest := fun m => Te.txn ++ (Rom.TXN_TO_PSA_COMMON ++ Rom.TRANSLIT_BY_PSA ++ printOnlyLtn m)) (fun m => by simp only [Te.nat, List.append_assoc])
    (by simp only [print_modes])

/-- C90, Telugu: the transcription. -/
theorem te_ipa : OneOutput Te.ipa (fun _ => True) :=
  out_of (rest := fun m => Te.txn ++ txnToIpa m) (P := OK M1)
    (fun m => by simp only [Te.ipa, List.append_assoc])
    (fun m => Blk.after te_txn (ipa_blk (by simp) m)) fun _ h => al_ok (by simp) h

/-- C90, Kannada: the romanization PSAF. -/
theorem kn_psaf : OneOutput Kn.psaf LowerCase :=
  out_of (rest := fun m => Kn.txn ++ Rom.TXN_TO_PSAF m) (P := OK M1)
    (fun m => by simp only [Kn.psaf, List.append_assoc])
    (fun m => Blk.after kn_txn ((psaf_tail m).mono (ok_M1_M1r))) fun _ h => al_ok (by simp) h

theorem kn_psaf_modes : ModesAgree Kn.psaf :=
  modes_of (rest := fun m => Kn.txn ++ Rom.TXN_TO_PSAF m) (fun m => by simp only [Kn.psaf, List.append_assoc])
    (by simp only [Rom.TXN_TO_PSAF, print_modes])

/-- C90, Kannada: the romanization PSAC. -/
theorem kn_psac : OneOutput Kn.psac LowerCase :=
  out_of (rest := fun m => Kn.txn ++ Rom.TXN_TO_PSAC m) (P := OK M1)
    (fun m => by simp only [Kn.psac, List.append_assoc])
    (fun m => Blk.after kn_txn (((psac_tail m)).mono (ok_M1_M1r))) fun _ h => al_ok (by simp) h

theorem kn_psac_modes : ModesAgree Kn.psac :=
  modes_of (rest := fun m => Kn.txn ++ Rom.TXN_TO_PSAC m) (fun m => by simp only [Kn.psac, List.append_assoc])
    (by simp only [Rom.TXN_TO_PSAC, print_modes])

/-- C90, Kannada: the natural romanization. -/
theorem kn_nat : OneOutput Kn.nat LowerCase :=
  out_of (rest := fun m => Kn.txn ++ (Rom.TXN_TO_PSA_COMMON ++ Rom.TRANSLIT_BY_PSA ++ printOnlyLtn m)) (P := OK M1)
    (fun m => by simp only [Kn.nat, List.append_assoc])
    (fun m => Blk.after kn_txn ((nat_tail m).mono ok_M1_M1r)) fun _ h => al_ok (by simp) h

theorem kn_nat_modes : ModesAgree Kn.nat :=
  modes_of (rest := fun m => Kn.txn ++ (Rom.TXN_TO_PSA_COMMON ++ Rom.TRANSLIT_BY_PSA ++ printOnlyLtn m)) (fun m => by simp only [Kn.nat, List.append_assoc])
    (by simp only [print_modes])

/-- C90, Kannada: the transcription. -/
theorem kn_ipa : OneOutput Kn.ipa (fun _ => True) :=
  out_of (rest := fun m => Kn.txn ++ txnToIpa m) (P := OK M1)
    (fun m => by simp only [Kn.ipa, List.append_assoc])
    (fun m => Blk.after kn_txn (ipa_blk (by simp) m)) fun _ h => al_ok (by simp) h

/-- C90, Hindi: the romanization PSAF. -/
theorem hi_psaf : OneOutput Hi.psaf LowerCase :=
  out_of (rest := fun m => Hi.txn ++ Rom.TXN_TO_PSAF m) (P := OK M1)
    (fun m => by simp only [Hi.psaf, List.append_assoc])
    (fun m => Blk.after hi_txn ((psaf_tail m).mono (ok_M2_M1r))) fun _ h => al_ok (by simp) h

theorem hi_psaf_modes : ModesAgree Hi.psaf :=
  modes_of (rest := fun m => Hi.txn ++ Rom.TXN_TO_PSAF m) (fun m => by simp only [Hi.psaf, List.append_assoc])
    (by simp only [Rom.TXN_TO_PSAF, print_modes])

/-- C90, Hindi: the romanization PSAC. -/
theorem hi_psac : OneOutput Hi.psac LowerCase :=
  out_of (rest := fun m => Hi.txn ++ Rom.TXN_TO_PSAC m) (P := OK M1)
    (fun m => by simp only [Hi.psac, List.append_assoc])
    (fun m => Blk.after hi_txn (((psac_tail m)).mono (ok_M2_M1r))) fun _ h => al_ok (by simp) h

theorem hi_psac_modes : ModesAgree Hi.psac :=
  modes_of (rest := fun m => Hi.txn ++ Rom.TXN_TO_PSAC m) (fun m => by simp only [Hi.psac, List.append_assoc])
    (by simp only [Rom.TXN_TO_PSAC, print_modes])

/-- C90, Hindi: the transcription. -/
theorem hi_ipa : OneOutput Hi.ipa (fun _ => True) :=
  out_of (rest := fun m => Hi.txn ++ txnToIpa m) (P := OK M1)
    (fun m => by simp only [Hi.ipa, List.append_assoc])
    (fun m => Blk.after hi_txn (ipa_blk (by simp) m)) fun _ h => al_ok (by simp) h

/-- C90, Marathi: the romanization PSAF. -/
theorem mr_psaf : OneOutput Mr.psaf LowerCase :=
  out_of (rest := fun m => Mr.txn ++ Rom.TXN_TO_PSAF m) (P := OK M1)
    (fun m => by simp only [Mr.psaf, List.append_assoc])
    (fun m => Blk.after mr_txn ((psaf_tail m).mono (ok_M2_M1r))) fun _ h => al_ok (by simp) h

theorem mr_psaf_modes : ModesAgree Mr.psaf :=
  modes_of (rest := fun m => Mr.txn ++ Rom.TXN_TO_PSAF m) (fun m => by simp only [Mr.psaf, List.append_assoc])
    (by simp only [Rom.TXN_TO_PSAF, print_modes])

/-- C90, Marathi: the romanization PSAC. -/
theorem mr_psac : OneOutput Mr.psac LowerCase :=
  out_of (rest := fun m => Mr.txn ++ Rom.TXN_TO_PSAC m) (P := OK M1)
    (fun m => by simp only [Mr.psac, List.append_assoc])
    (fun m => Blk.after mr_txn (((psac_tail m)).mono (ok_M2_M1r))) fun _ h => al_ok (by simp) h

theorem mr_psac_modes : ModesAgree Mr.psac :=
  modes_of (rest := fun m => Mr.txn ++ Rom.TXN_TO_PSAC m) (fun m => by simp only [Mr.psac, List.append_assoc])
    (by simp only [Rom.TXN_TO_PSAC, print_modes])

/-- C90, Marathi: the natural romanization. -/
theorem mr_nat : OneOutput Mr.nat LowerCase :=
  out_of (rest := fun m => Mr.txn ++ gaonNat m) (P := OK M1)
    (fun m => by simp only [Mr.nat, List.append_assoc])
    (fun m => Blk.after mr_txn (((gaon_tail m)).mono (ok_M2_M1r))) fun _ h => al_ok (by simp) h

theorem mr_nat_modes : ModesAgree Mr.nat :=
  modes_of (rest := fun m => Mr.txn ++ gaonNat m) (fun m => by simp only [Mr.nat, List.append_assoc])
    (by simp only [gaonNat, print_modes])

/-- C90, Marathi: the transcription. -/
theorem mr_ipa : OneOutput Mr.ipa (fun _ => True) :=
  out_of (rest := fun m => Mr.txn ++ txnToIpa m) (P := OK M1)
    (fun m => by simp only [Mr.ipa, List.append_assoc])
    (fun m => Blk.after mr_txn (ipa_blk (by simp) m)) fun _ h => al_ok (by simp) h

/-- C90, Bengali: the romanization PSAF. -/
theorem bn_psaf : OneOutput Bn.psaf LowerCase :=
  out_of (rest := fun m => Bn.txn ++ (Bn.psaOps ++ Rom.TRANSLIT_LONG ++ Rom.TRANSLIT_BY_PSA ++ printOnlyLtn m)) (P := OK M1h)
    (fun m => by simp only [Bn.psaf, List.append_assoc])
    (fun m => Blk.after bn_txn ((bn_psaf_tail m).mono (ok_M1_M1r))) fun _ h => al_ok (by simp) h

theorem bn_psaf_modes : ModesAgree Bn.psaf :=
  modes_of (rest := fun m => Bn.txn ++ (Bn.psaOps ++ Rom.TRANSLIT_LONG ++ Rom.TRANSLIT_BY_PSA ++ printOnlyLtn m)) (fun m => by simp only [Bn.psaf, List.append_assoc])
    (by simp only [print_modes])

/-- C90, Bengali: the romanization PSAC. -/
theorem bn_psac : OneOutput Bn.psac LowerCase :=
  out_of (rest := fun m => Bn.txn ++ (Bn.psaOps ++ Rom.IGNORE_LONG ++ Rom.TRANSLIT_BY_PSA ++ printOnlyLtn m ++ Rom.REMOVE_REPEATED_LTN)) (P := OK M1h)
    (fun m => by simp only [Bn.psac, List.append_assoc])
    (fun m => Blk.after bn_txn (((bn_psac_tail m)).mono (ok_M1_M1r))) fun _ h => al_ok (by simp) h

theorem bn_psac_modes : ModesAgree Bn.psac :=
  modes_of (rest := fun m => Bn.txn ++ (Bn.psaOps ++ Rom.IGNORE_LONG ++ Rom.TRANSLIT_BY_PSA ++ printOnlyLtn m ++ Rom.REMOVE_REPEATED_LTN)) (fun m => by simp only [Bn.psac, List.append_assoc])
    (by simp only [print_modes])

/-- C90, Bengali: the natural romanization. -/
theorem bn_nat : OneOutput Bn.nat LowerCase :=
  out_of (rest := fun m => Bn.txn ++ (Bn.psaOps ++ Rom.SIBV_TO_SIBW ++ Rom.NYJ_NJ ++ Rom.AA_AO_CND ++ Rom.WF_CND_OO ++ Rom.OOYY_W ++ Rom.IYY_I ++ Rom.IGNORE_LONG ++ Rom.TRANSLIT_BY_PSA ++ Rom.CC_TO_CCH ++ Rom.CCH_TO_CHH ++ Rom.S_SHSH_TO_SSH ++ printOnlyLtn m)) (P := OK M1h)
    (fun m => by simp only [Bn.nat, List.append_assoc])
    (fun m => Blk.after bn_txn (((bn_nat_tail m)).mono (ok_M1_M1r))) fun _ h => al_ok (by simp) h

theorem bn_nat_modes : ModesAgree Bn.nat :=
  modes_of (rest := fun m => Bn.txn ++ (Bn.psaOps ++ Rom.SIBV_TO_SIBW ++ Rom.NYJ_NJ ++ Rom.AA_AO_CND ++ Rom.WF_CND_OO ++ Rom.OOYY_W ++ Rom.IYY_I ++ Rom.IGNORE_LONG ++ Rom.TRANSLIT_BY_PSA ++ Rom.CC_TO_CCH ++ Rom.CCH_TO_CHH ++ Rom.S_SHSH_TO_SSH ++ printOnlyLtn m)) (fun m => by simp only [Bn.nat, List.append_assoc])
    (by simp only [print_modes])

/-- C90, Bengali: the transcription. -/
theorem bn_ipa : OneOutput Bn.ipa (fun _ => True) :=
  out_of (rest := fun m => Bn.txn ++ txnToIpa m) (P := OK M1h)
    (fun m => by simp only [Bn.ipa, List.append_assoc])
    (fun m => Blk.after bn_txn (ipa_blk (by simp) m)) fun _ h => al_ok (by simp) h

/-- C90, Tamil: the romanization PSAC. -/
theorem ta_psac : OneOutput Ta.psac LowerCase :=
  out_of (rest := fun m => Ta.txn ++ Rom.TXN_TO_PSAC m) (P := OK M1t)
    (fun m => by simp only [Ta.psac, List.append_assoc])
    (fun m => Blk.after ta_txn (((psac_tail m)).mono (ok_M1t_M1r))) fun _ h => al_ok (by simp) h

theorem ta_psac_modes : ModesAgree Ta.psac :=
  modes_of (rest := fun m => Ta.txn ++ Rom.TXN_TO_PSAC m) (fun m => by simp only [Ta.psac, List.append_assoc])
    (by simp only [Rom.TXN_TO_PSAC, print_modes])

/-- C90, Tamil: the natural romanization. -/
theorem ta_nat : OneOutput Ta.nat LowerCase :=
  out_of (rest := fun m => Ta.txn ++ (Ta.natOps ++ Rom.TXN_TO_PSA_COMMON ++ Rom.TRANSLIT_BY_PSA ++ printOnlyLtn m)) (P := OK M1t)
    (fun m => by simp only [Ta.nat, List.append_assoc])
    (fun m => Blk.after ta_txn (((ta_nat_tail m)).mono (fun _ h => h.mono incl_M1t_M1tr))) fun _ h => al_ok (by simp) h

theorem ta_nat_modes : ModesAgree Ta.nat :=
  modes_of (rest := fun m => Ta.txn ++ (Ta.natOps ++ Rom.TXN_TO_PSA_COMMON ++ Rom.TRANSLIT_BY_PSA ++ printOnlyLtn m)) (fun m => by simp only [Ta.nat, List.append_assoc])
    (by simp only [print_modes])

/-- C90, Tamil: the transcription. -/
theorem ta_ipa : OneOutput Ta.ipa (fun _ => True) :=
  out_of (rest := fun m => Ta.txn ++ txnToIpa m) (P := OK M1t)
    (fun m => by simp only [Ta.ipa, List.append_assoc])
    (fun m => Blk.after ta_txn (ipa_blk (by simp) m)) fun _ h => al_ok (by simp) h

/-- C90, Malayalam: the romanization PSAC. -/
theorem ml_psac : OneOutput Ml.psac LowerCase :=
  out_of (rest := fun m => Ml.txn ++ Rom.TXN_TO_PSAC m) (P := OK M1)
    (fun m => by simp only [Ml.psac, List.append_assoc])
    (fun m => ml_blk ((psac_tail m).mono ok_M1_M1r)) fun _ h => al_ok (by simp) h

theorem ml_psac_modes : ModesAgree Ml.psac :=
  modes_of (rest := fun m => Ml.txn ++ Rom.TXN_TO_PSAC m) (fun m => by simp only [Ml.psac, List.append_assoc])
    (by simp only [Rom.TXN_TO_PSAC, print_modes])

/-- C90, Malayalam: the natural romanization. -/
theorem ml_nat : OneOutput Ml.nat LowerCase :=
  out_of (rest := fun m => Ml.txn ++ (Ml.natOps ++ Rom.TXN_TO_PSA_COMMON ++ Rom.TRANSLIT_BY_PSA ++ printOnlyLtn m)) (P := OK M1)
    (fun m => by simp only [Ml.nat, List.append_assoc])
    (fun m => ml_blk ((ml_nat_tail m).mono ok_M1_M1r)) fun _ h => al_ok (by simp) h

theorem ml_nat_modes : ModesAgree Ml.nat :=
  modes_of (rest := fun m => Ml.txn ++ (Ml.natOps ++ Rom.TXN_TO_PSA_COMMON ++ Rom.TRANSLIT_BY_PSA ++ printOnlyLtn m)) (fun m => by simp only [Ml.nat, List.append_assoc])
    (by simp only [print_modes])

/-- C90, Malayalam: the transcription. -/
theorem ml_ipa : OneOutput Ml.ipa (fun _ => True) :=
  out_of (rest := fun m => Ml.txn ++ txnToIpa m) (P := OK M1)
    (fun m => by simp only [Ml.ipa, List.append_assoc])
    (fun m => ml_blk (ipa_blk (by simp) m)) fun _ h => al_ok (by simp) h

/-! ### Gujarati -/

/-- A text has exactly one output if it has no diphthong. -/
def OneOutputND (g : Mode → List Rel) (good : Str → Prop) : Prop :=
  (∀ m cs, IsIso cs → NoDiphthong m cs → ∃ y, good y ∧ ∀ z, compose (g m) (isoText m cs) z ↔ z = y) ∧
  ∀ m x z, compose (g m) x z → ∃ cs, IsIso cs ∧ x = isoText m cs

theorem outND_of {g rest : Mode → List Rel} {good : Str → Prop}
    (hg : ∀ m, g m = G2p.isoToTxn m ++ rest m) (hb : ∀ m, Blk (OK M2) (rest m) good) :
    OneOutputND g good := by
  refine ⟨fun m cs hcs hd => ?_, out_domain rest hg⟩
  obtain ⟨y, h1, h2, h3⟩ := whole (m := m) (hb m) hcs fun ts ht hi => noDi_start hd ht hi
  refine ⟨y, h1, fun z => ?_⟩
  rw [hg]
  exact ⟨h3 z, fun hz => hz ▸ h2⟩

/-- C90, Gujarati, for texts without a diphthong. -/
theorem gu_psaf_partial : OneOutputND Gu.psaf LowerCase :=
  outND_of (rest := fun m => Gu.txn ++ Rom.TXN_TO_PSAF m) (fun m => by simp only [Gu.psaf, List.append_assoc])
    fun m => Blk.after gu_txn ((psaf_tail m).mono ok_M2_M1r)

theorem gu_psaf_modes : ModesAgree Gu.psaf :=
  modes_of (rest := fun m => Gu.txn ++ Rom.TXN_TO_PSAF m) (fun m => by simp only [Gu.psaf, List.append_assoc])
    (by simp only [Rom.TXN_TO_PSAF, print_modes])

/-- C90, Gujarati, for texts without a diphthong. -/
theorem gu_psac_partial : OneOutputND Gu.psac LowerCase :=
  outND_of (rest := fun m => Gu.txn ++ Rom.TXN_TO_PSAC m) (fun m => by simp only [Gu.psac, List.append_assoc])
    fun m => Blk.after gu_txn ((psac_tail m).mono ok_M2_M1r)

theorem gu_psac_modes : ModesAgree Gu.psac :=
  modes_of (rest := fun m => Gu.txn ++ Rom.TXN_TO_PSAC m) (fun m => by simp only [Gu.psac, List.append_assoc])
    (by simp only [Rom.TXN_TO_PSAC, print_modes])

/-- C90, Gujarati, for texts without a diphthong. -/
theorem gu_nat_partial : OneOutputND Gu.nat LowerCase :=
  outND_of (rest := fun m => Gu.txn ++ gaonNat m) (fun m => by simp only [Gu.nat, List.append_assoc])
    fun m => Blk.after gu_txn ((gaon_tail m).mono ok_M2_M1r)

theorem gu_nat_modes : ModesAgree Gu.nat :=
  modes_of (rest := fun m => Gu.txn ++ gaonNat m) (fun m => by simp only [Gu.nat, List.append_assoc])
    (by simp only [gaonNat, print_modes])

/-- C90, Gujarati, for texts without a diphthong. -/
theorem gu_ipa_partial : OneOutputND Gu.ipa (fun _ => True) :=
  outND_of (rest := fun m => Gu.txn ++ txnToIpa m) (fun m => by simp only [Gu.ipa, List.append_assoc])
    fun m => Blk.after gu_txn (ipa_blk (by simp) m)

/-! ### Punjabi -/

/-- A text has outputs, all with a property, and only ISO texts have outputs. -/
def SomeOutput (g : Mode → List Rel) (good : Str → Prop) : Prop :=
  (∀ m cs, IsIso cs → (∃ y, compose (g m) (isoText m cs) y) ∧
    ∀ z, compose (g m) (isoText m cs) z → good z) ∧
  ∀ m x z, compose (g m) x z → ∃ cs, IsIso cs ∧ x = isoText m cs

theorem outE_of {g rest : Mode → List Rel} {P : List Tok → Prop} {good : Str → Prop}
    (hg : ∀ m, g m = G2p.isoToTxn m ++ rest m) (hb : ∀ m, BlkE P (rest m) good)
    (hp : ∀ ts, Typ ts → P (ts.flatMap alTok)) : SomeOutput g good := by
  refine ⟨fun m cs hcs => ?_, out_domain rest hg⟩
  rw [hg]
  exact wholeE (m := m) (hb m) hcs hp

/-- C90, Punjabi, without uniqueness. -/
theorem pa_psaf_partial : SomeOutput Pa.psaf LowerCase :=
  outE_of (rest := fun m => Pa.txn ++ Rom.TXN_TO_PSAF m) (P := OK M1)
    (fun m => by simp only [Pa.psaf, List.append_assoc])
    (fun m => BlkE.after pa_txn (((psaf_tail m).mono ok_M2_M1r).blkE)) fun _ h => al_ok (by simp) h

theorem pa_psaf_modes : ModesAgree Pa.psaf :=
  modes_of (rest := fun m => Pa.txn ++ Rom.TXN_TO_PSAF m) (fun m => by simp only [Pa.psaf, List.append_assoc])
    (by simp only [Rom.TXN_TO_PSAF, print_modes])

/-- C90, Punjabi, without uniqueness. -/
theorem pa_psac_partial : SomeOutput Pa.psac LowerCase :=
  outE_of (rest := fun m => Pa.txn ++ Rom.TXN_TO_PSAC m) (P := OK M1)
    (fun m => by simp only [Pa.psac, List.append_assoc])
    (fun m => BlkE.after pa_txn (((psac_tail m).mono ok_M2_M1r).blkE)) fun _ h => al_ok (by simp) h

theorem pa_psac_modes : ModesAgree Pa.psac :=
  modes_of (rest := fun m => Pa.txn ++ Rom.TXN_TO_PSAC m) (fun m => by simp only [Pa.psac, List.append_assoc])
    (by simp only [Rom.TXN_TO_PSAC, print_modes])

/-- C90, Punjabi, without uniqueness. -/
theorem pa_nat_partial : SomeOutput Pa.nat LowerCase :=
  outE_of (rest := fun m => Pa.txn ++ (Rom.RD_R ++ Rom.SIBV_TO_SIBW ++ Rom.TXN_TO_PSA_COMMON ++ Rom.IGNORE_LONG ++ Rom.TRANSLIT_BY_PSA ++
    Rom.CC_TO_CCH ++ Rom.CCH_TO_CHH ++ Rom.S_SHSH_TO_SSH ++ printOnlyLtn m)) (P := OK M1)
    (fun m => by simp only [Pa.nat, List.append_assoc])
    (fun m => BlkE.after pa_txn (((pa_nat_tail m).mono ok_M2_M1r).blkE)) fun _ h => al_ok (by simp) h

theorem pa_nat_modes : ModesAgree Pa.nat :=
  modes_of (rest := fun m => Pa.txn ++ (Rom.RD_R ++ Rom.SIBV_TO_SIBW ++ Rom.TXN_TO_PSA_COMMON ++ Rom.IGNORE_LONG ++ Rom.TRANSLIT_BY_PSA ++
    Rom.CC_TO_CCH ++ Rom.CCH_TO_CHH ++ Rom.S_SHSH_TO_SSH ++ printOnlyLtn m)) (fun m => by simp only [Pa.nat, List.append_assoc])
    (by simp only [print_modes])

/-- C90, Punjabi, without uniqueness. -/
theorem pa_ipa_partial : SomeOutput Pa.ipa (fun _ => True) :=
  outE_of (rest := fun m => Pa.txn ++ txnToIpa m) (P := OK M1)
    (fun m => by simp only [Pa.ipa, List.append_assoc])
    (fun m => BlkE.after pa_txn ((ipa_blk (by simp) m).blkE)) fun _ h => al_ok (by simp) h

/-- The text `ka` has no diphthong. -/
example : NoDiphthong .byte textKa := by
  intro z hz s hs
  obtain ⟨_, _, hun, _⟩ := iso_to_typ_unique .byte textKa textKa_iso
  rw [(hun z).1 hz, ← (hun _).1 (textKa_typ .byte)]
  simp only [List.mem_cons, List.not_mem_nil, or_false] at hs
  rcases hs with rfl | rfl | rfl | rfl <;> decide

end Nisaba.Props
