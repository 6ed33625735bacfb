import Verif.Lemmas.NtPaAmb
import Verif.Props.NtIpa
/-!
# natural_translit: texts of Gujarati without output, texts of Punjabi with several outputs (C89, C90)
-/
namespace Nisaba.Props
open Nisaba Nisaba.NT G2p Rom

set_option maxRecDepth 100000

/-! ## Gujarati -/

/-- No output. -/
def NoOutput (g : Mode → List Rel) (m : Mode) (cs : List Chr) : Prop :=
  ∀ z, ¬ compose (g m) (isoText m cs) z

theorem gu_none {g tail : Mode → List Rel} (hg : ∀ m, g m = isoToTxn m ++ (Gu.txn ++ tail m))
    (ht : ∀ m x y, compose (tail m) x y → ¬ ecPlus <:+: x) {m : Mode} {cs : List Chr} (h : IsIso cs)
    (hd : ¬ NoDiphthong m cs) : NoOutput g m cs := by
  intro z hz
  refine hd fun w hw s hs hi => ?_
  obtain ⟨ts, h1, h2, _, h4⟩ := isoTxn_stage m h
  have hu : w = enc ts := by
    obtain ⟨_, _, hun, _⟩ := iso_to_typ_unique m cs h
    rw [(hun w).1 hw, ← (hun (enc ts)).1 h2]
  subst hu
  have hm : Tok.g s ∈ ts := by
    obtain ⟨a, b, he⟩ := hi
    obtain ⟨ut, vt, h3, _⟩ := enc_factor (a := .g s) (lt := []) (u := a) (v := b) h1.1.plain
      (by
        intro t ht
        rw [List.mem_singleton] at ht
        subst ht
        simp only [List.mem_cons, List.not_mem_nil, or_false] at hs
        rcases hs with rfl | rfl | rfl | rfl <;> decide) (by simp)
      (by rw [← he]; simp [enc, enc1])
    rw [h3]; simp
  rw [hg] at hz
  obtain ⟨u, hu, hz⟩ := (compose_append ..).1 hz
  rw [h4 u hu] at hz
  obtain ⟨v, hv, hz⟩ := (compose_append ..).1 hz
  exact ht m _ _ hz (gu_txn_di hv (al_di h1.1 hs hm))

/-- C90, Gujarati: texts with a diphthong have no romanization PSAF. -/
theorem gu_psaf_violated (m : Mode) (cs : List Chr) (h : IsIso cs) (hd : ¬ NoDiphthong m cs) :
    NoOutput Gu.psaf m cs :=
  gu_none (tail := TXN_TO_PSAF) (fun m => by simp only [Gu.psaf, List.append_assoc]) (fun _ _ _ => psaf_di) h hd

/-- C90, Gujarati: texts with a diphthong have no romanization PSAC. -/
theorem gu_psac_violated (m : Mode) (cs : List Chr) (h : IsIso cs) (hd : ¬ NoDiphthong m cs) :
    NoOutput Gu.psac m cs :=
  gu_none (tail := TXN_TO_PSAC) (fun m => by simp only [Gu.psac, List.append_assoc]) (fun _ _ _ => psac_di) h hd

/-- C90, Gujarati: texts with a diphthong have no natural romanization. -/
theorem gu_nat_violated (m : Mode) (cs : List Chr) (h : IsIso cs) (hd : ¬ NoDiphthong m cs) :
    NoOutput Gu.nat m cs :=
  gu_none (tail := gaonNat) (fun m => by simp only [Gu.nat, List.append_assoc]) (fun _ _ _ => gaon_di) h hd

/-- C90, Gujarati: texts with a diphthong have no transcription. -/
theorem gu_ipa_violated (m : Mode) (cs : List Chr) (h : IsIso cs) (hd : ¬ NoDiphthong m cs) :
    NoOutput Gu.ipa m cs :=
  gu_none (tail := txnToIpa) (fun m => by simp only [Gu.ipa, List.append_assoc]) (fun _ _ _ => ipa_di) h hd

/-- The text `kai`. -/
def textKai : List Chr := [a!"K", a!"A", a!"I"].map Brh.sp

theorem textKai_glyphs : textKai.flatMap Chr.glyph = a!"kai" := by decide +kernel
theorem textKai_iso : IsIso textKai := spB_iff (by decide +kernel)
theorem textKai_typ (m : Mode) : isoToTyp m (isoText m textKai) a!"<k><ai>" :=
  typB_iff (as := [a!"K", a!"A", a!"I"]) (s1 := a!"<k><a><i>") (ts2 := [.g a!"k", .g a!"ai"])
    (s4 := a!"<k><ai>") (s5 := a!"<k><ai>") (by decide +kernel) m

/-- The text `kai` has a diphthong. -/
theorem textKai_diphthong (m : Mode) : ¬ NoDiphthong m textKai := fun h =>
  h _ (textKai_typ m) a!"ai" (by simp) ⟨a!"<k>", [], by decide⟩

/-- The text `kai` meets the hypotheses. -/
example : IsIso textKai ∧ ¬ NoDiphthong .byte textKai ∧ NoOutput Gu.psaf .byte textKai :=
  ⟨textKai_iso, textKai_diphthong _, gu_psaf_violated _ _ textKai_iso (textKai_diphthong _)⟩

/-! ## Punjabi -/

/-- Texts without characters that have no sound. -/
def NoSilent (m : Mode) (cs : List Chr) : Prop :=
  ∀ z, isoToTyp m (isoText m cs) z → ∀ s ∈ [a!"avg", a!"nkt", a!"cnd_dia", a!"add", a!"long", a!"chl",
    a!"eye", a!"ind", a!"sgn", a!"zwj", a!"zwn", a!"vir"], ¬ encloseGrapheme s <:+: z

theorem noSil_start {m : Mode} {cs : List Chr} (hd : NoSilent m cs) {ts : List Tok} (h1 : Typ ts)
    (h2 : compose (isoToTypRules m) (isoText m cs) (enc ts)) : NoSilT (ts.flatMap alTok) := by
  refine al_noSil h1 fun s hs hm => ?_
  refine hd _ h2 s hs ?_
  obtain ⟨us, vs, rfl⟩ := List.append_of_mem hm
  refine ⟨enc us, enc vs, ?_⟩
  rw [enc_append, enc_cons, List.append_assoc]
  rfl

theorem pa_one {g tail : Mode → List Rel} {good : Str → Prop}
    (hg : ∀ m, g m = isoToTxn m ++ (Pa.txn ++ tail m)) (hb : ∀ m, Blk (OK M2) (tail m) good)
    (m : Mode) (cs : List Chr) (h : IsIso cs) (hs : NoSilent m cs) :
    ∃ y, good y ∧ ∀ z, compose (g m) (isoText m cs) z ↔ z = y := by
  obtain ⟨y, h1, h2, h3⟩ := whole (m := m) (pa_blk (Blk.after pa_rest (hb m))) h
    fun ts ht hi => ⟨al_ok (by simp) ht, noSil_start hs ht hi⟩
  refine ⟨y, h1, fun z => ?_⟩
  rw [hg]
  exact ⟨h3 z, fun hz => hz ▸ h2⟩

/-- C90, Punjabi, for texts without silent characters. -/
theorem pa_psaf_unique_partial (m : Mode) (cs : List Chr) (h : IsIso cs) (hs : NoSilent m cs) :
    ∃ y, LowerCase y ∧ ∀ z, compose (Pa.psaf m) (isoText m cs) z ↔ z = y :=
  pa_one (tail := TXN_TO_PSAF) (fun m => by simp only [Pa.psaf, List.append_assoc])
    (fun m => (psaf_tail m).mono ok_M2_M1r) m cs h hs

/-- C90, Punjabi, for texts without silent characters. -/
theorem pa_psac_unique_partial (m : Mode) (cs : List Chr) (h : IsIso cs) (hs : NoSilent m cs) :
    ∃ y, LowerCase y ∧ ∀ z, compose (Pa.psac m) (isoText m cs) z ↔ z = y :=
  pa_one (tail := TXN_TO_PSAC) (fun m => by simp only [Pa.psac, List.append_assoc])
    (fun m => (psac_tail m).mono ok_M2_M1r) m cs h hs

/-- C90, Punjabi, for texts without silent characters. -/
theorem pa_nat_unique_partial (m : Mode) (cs : List Chr) (h : IsIso cs) (hs : NoSilent m cs) :
    ∃ y, LowerCase y ∧ ∀ z, compose (Pa.nat m) (isoText m cs) z ↔ z = y :=
  pa_one (tail := fun m => RD_R ++ SIBV_TO_SIBW ++ TXN_TO_PSA_COMMON ++ IGNORE_LONG ++ TRANSLIT_BY_PSA ++
    CC_TO_CCH ++ CCH_TO_CHH ++ S_SHSH_TO_SSH ++ printOnlyLtn m) (fun m => by simp only [Pa.nat, List.append_assoc])
    (fun m => (pa_nat_tail m).mono ok_M2_M1r) m cs h hs

/-- C90, Punjabi, for texts without silent characters. -/
theorem pa_ipa_unique_partial (m : Mode) (cs : List Chr) (h : IsIso cs) (hs : NoSilent m cs) :
    ∃ y, ∀ z, compose (Pa.ipa m) (isoText m cs) z ↔ z = y := by
  obtain ⟨y, _, h⟩ := pa_one (g := Pa.ipa) (tail := txnToIpa) (good := fun _ => True)
    (fun m => by simp only [Pa.ipa, List.append_assoc]) (fun m => ipa_blk (by simp) m) m cs h hs
  exact ⟨y, h⟩

/-- C89, Punjabi, for texts without silent characters. -/
theorem pa_pronunciation_unique_partial (m : Mode) (cs : List Chr) (h : IsIso cs) (hs : NoSilent m cs) :
    OnePronunciation Pa.txn m cs := by
  have hb : Blk (OK M1) (paRest ++ []) (fun _ => True) := by
    intro ts hts
    rw [List.append_nil]
    obtain ⟨y, hy⟩ := pa_rest.1.2 ts hts
    exact ⟨y, trivial, hy, fun z hz => pa_rest.2 _ _ _ hz hy⟩
  obtain ⟨y, _, h2, h3⟩ := whole (m := m) (pa_blk hb) h
    fun ts ht hi => ⟨al_ok (by simp) ht, noSil_start hs ht hi⟩
  rw [List.append_nil] at h2 h3
  obtain ⟨h4, h5⟩ := (pa_pronunciation_partial m cs h).2 y h2
  exact ⟨y, fun z => ⟨h3 z, fun hz => hz ▸ h2⟩, h4, h5⟩

/-- C91, Punjabi, for texts without silent characters. -/
theorem pa_transcription_partial : Transcribes Pa.txn Pa.ipa (NoSilent .utf8) :=
  transcribes_of (fun _ => rfl)
    (fun cs h hd => by obtain ⟨z, h1, h2, _⟩ := pa_pronunciation_unique_partial .utf8 cs h hd; exact ⟨z, h1, h2⟩)
    (fun cs h hd => by obtain ⟨y, h1⟩ := pa_ipa_unique_partial .utf8 cs h hd; exact ⟨y, (h1 y).2 rfl⟩)

/-- The text `ka` has no silent characters. -/
example : NoSilent .byte textKa := by
  intro z hz s hs
  obtain ⟨_, _, hun, _⟩ := iso_to_typ_unique .byte textKa textKa_iso
  rw [(hun z).1 hz, ← (hun _).1 (textKa_typ .byte)]
  simp only [List.mem_cons, List.not_mem_nil, or_false] at hs
  rcases hs with rfl | rfl | rfl | rfl | rfl | rfl | rfl | rfl | rfl | rfl | rfl | rfl <;> decide

/-- The text `˖c` of an addak and an affricate, as in the word for `child`. -/
def textAddC : List Chr := [a!"ADD", a!"C"].map Brh.sp

theorem textAddC_iso : IsIso textAddC := spB_iff (by decide +kernel)
theorem textAddC_typ (m : Mode) : isoToTyp m (isoText m textAddC) a!"<add><c>" :=
  typB_iff (as := [a!"ADD", a!"C"]) (s1 := a!"<add><c>") (ts2 := [.g a!"add", .g a!"c"])
    (s4 := a!"<add><c>") (s5 := a!"<add><c>") (by decide +kernel) m

theorem textAddC_txn (m : Mode) : compose (isoToTxn m) (isoText m textAddC) addC := by
  have ht : Typ [.g a!"add", .g a!"c"] := by
    have h : (([a!"add", a!"c"] : List Str).all fun s => Brh.CHAR.any fun c => seq c.typ s) = true := by
      decide +kernel
    intro a ha
    rw [List.all_eq_true] at h
    have key : ∀ s ∈ ([a!"add", a!"c"] : List Str), ∃ c ∈ Brh.CHAR, Tok.g s = .g c.typ := by
      intro s hs
      obtain ⟨c, hc, he⟩ := List.any_eq_true.1 (h s hs)
      exact ⟨c, hc, by rw [seq_eq.1 he]⟩
    simp only [List.mem_cons, List.not_mem_nil, or_false] at ha
    rcases ha with rfl | rfl
    exacts [key _ (by simp), key _ (by simp)]
  have e : enc ([Tok.g a!"add", .g a!"c"].flatMap alTok) = addC := by decide +kernel
  rw [← e]
  exact txn_of_typ ht (textAddC_typ m)

/-- C89, Punjabi: a text with two pronunciations. -/
theorem pa_pronunciation_violated (m : Mode) :
    IsIso textAddC ∧ compose (isoToTxn m ++ Pa.txn) (isoText m textAddC) a!"<add>={sil}<c>={t}{t}{+}{sh}" ∧
      compose (isoToTxn m ++ Pa.txn) (isoText m textAddC) a!"<add>={sil}<c>={t}{+}{sh}{t}{+}{sh}" :=
  ⟨textAddC_iso, (compose_append ..).2 ⟨_, textAddC_txn m, pa_amb (.inl rfl)⟩,
    (compose_append ..).2 ⟨_, textAddC_txn m, pa_amb (.inr rfl)⟩⟩

theorem enc_symbols {ts : List Tok} (h : Plain ts) : Symbols (enc ts) := by
  induction ts with
  | nil => exact .nil
  | cons a ts ih =>
    obtain ⟨h1, h2⟩ := plain_cons.1 h
    have hs : SYM a.name := fun c hc => nameChar_sym (h1 c hc)
    rw [enc_cons]
    refine star_append ?_ (ih h2)
    cases a with
    | g s => exact symbols_one (l := GRAPHEME) (by simp) ⟨[60], _, rfl, rfl, s, _, rfl, hs, rfl⟩
    | eq => exact symbols_one (l := str [EQ]) (by simp) rfl
    | p s => exact symbols_one (l := PHONEME) (by simp) ⟨[123], _, rfl, rfl, s, _, rfl, hs, rfl⟩
    | t s => exact symbols_one (l := TRANSLIT) (by simp) ⟨[96], _, rfl, rfl, s, _, rfl, hs, rfl⟩

/-- Check of a transcription. -/
def ipaB (ts : List Tok) (as : List Str) (y : Str) : Bool :=
  plainB ts && (as.all (fun a => (Mul.PHONEMES.find? fun p => seq p.alias a).isSome) &&
    (seq (Spec.rightSides (enc ts)) ((as.map Mul.ph).flatMap Phn.ph) && seq ((as.map Mul.ph).flatMap Phn.ipa) y))

theorem ipaB_iff {ts : List Tok} {as : List Str} {y : Str} (h : ipaB ts as y = true) (m : Mode) :
    compose (txnToIpa m) (enc ts) (m.labels y) := by
  simp only [ipaB, Bool.and_eq_true] at h
  obtain ⟨h1, h2, h3, h4⟩ := h
  rw [txn_to_ipa_iff m _ (enc_symbols (plainB_iff.1 h1))]
  refine ⟨as.map Mul.ph, ?_, seq_eq.1 h3, by rw [seq_eq.1 h4]⟩
  intro p hp
  obtain ⟨a, ha, rfl⟩ := List.mem_map.1 hp
  obtain ⟨q, hq⟩ := Option.isSome_iff_exists.1 (List.all_eq_true.1 h2 a ha)
  rw [Mul.ph, phnByAlias, hq]
  exact List.mem_append.2 (.inl (List.mem_of_find?_eq_some hq))

/-- Check of the printing of Latin letters. -/
def ltnB (ts : List Tok) (as : List Str) (y : Str) : Bool :=
  plainB ts && (as.all (fun a => (Ltn.CHARS.find? fun p => seq p.alias a).isSome) &&
    (seq (Spec.rightSides (enc ts)) ((as.map (byAlias Ltn.CHARS)).flatMap Chr.tr) &&
      seq ((as.map (byAlias Ltn.CHARS)).flatMap Chr.glyph) y))

theorem ltnB_iff {ts : List Tok} {as : List Str} {y : Str} (h : ltnB ts as y = true) (m : Mode) :
    compose (printOnlyLtn m) (enc ts) (m.labels y) := by
  simp only [ltnB, Bool.and_eq_true] at h
  obtain ⟨h1, h2, h3, h4⟩ := h
  rw [print_ltn_iff m _ (enc_symbols (plainB_iff.1 h1))]
  refine ⟨as.map (byAlias Ltn.CHARS), ?_, seq_eq.1 h3, by rw [seq_eq.1 h4]⟩
  intro p hp
  obtain ⟨a, ha, rfl⟩ := List.mem_map.1 hp
  obtain ⟨q, hq⟩ := Option.isSome_iff_exists.1 (List.all_eq_true.1 h2 a ha)
  rw [byAlias, hq]
  exact List.mem_of_find?_eq_some hq

/-- C90, Punjabi: a text with two transcriptions. -/
theorem pa_ipa_violated (m : Mode) :
    IsIso textAddC ∧ compose (Pa.ipa m) (isoText m textAddC) (m.labels a!"tt͡ʃ") ∧
      compose (Pa.ipa m) (isoText m textAddC) (m.labels a!"t͡ʃt͡ʃ") := by
  have h1 : compose (txnToIpa m) addC1 _ :=
    ipaB_iff (ts := [.g a!"add", .eq, .p a!"sil", .g a!"c", .eq, .p a!"t", .p a!"t", .p a!"+", .p a!"sh"])
      (as := [a!"SIL", a!"T", a!"T_SH"]) (y := a!"tt͡ʃ") (by decide +kernel) m
  have h2 : compose (txnToIpa m) addC2 _ :=
    ipaB_iff (ts := [.g a!"add", .eq, .p a!"sil", .g a!"c", .eq, .p a!"t", .p a!"+", .p a!"sh", .p a!"t", .p a!"+", .p a!"sh"])
      (as := [a!"SIL", a!"T_SH", a!"T_SH"]) (y := a!"t͡ʃt͡ʃ") (by decide +kernel) m
  obtain ⟨h0, h3, h4⟩ := pa_pronunciation_violated m
  exact ⟨h0, (compose_append ..).2 ⟨_, h3, h1⟩, (compose_append ..).2 ⟨_, h4, h2⟩⟩

/-- Transliteration of the two pronunciations. -/
def addT1 : Str := a!"<add>=`DEL`<c>=`t``s_ch`"
def addT2 : Str := a!"<add>=`DEL`<c>=`s_ch``s_ch`"

theorem addT (m : Mode) : compose (TRANSLIT_BY_PSA ++ printOnlyLtn m) addC1 (m.labels a!"tch") ∧
    compose (TRANSLIT_BY_PSA ++ printOnlyLtn m) addC2 (m.labels a!"chch") := by
  rw [tbp_eq]
  refine ⟨(compose_append ..).2 ⟨addT1, evB_iff (by decide +kernel), ?_⟩,
    (compose_append ..).2 ⟨addT2, evB_iff (by decide +kernel), ?_⟩⟩
  · exact ltnB_iff (ts := [.g a!"add", .eq, .t a!"DEL", .g a!"c", .eq, .t a!"t", .t a!"s_ch"])
      (as := [a!"DEL", a!"T", a!"S_CH"]) (by decide +kernel) m
  · exact ltnB_iff (ts := [.g a!"add", .eq, .t a!"DEL", .g a!"c", .eq, .t a!"s_ch", .t a!"s_ch"])
      (as := [a!"DEL", a!"S_CH", a!"S_CH"]) (by decide +kernel) m

/-- C90, Punjabi: a text with two romanizations PSAF. -/
theorem pa_psaf_violated (m : Mode) :
    IsIso textAddC ∧ compose (Pa.psaf m) (isoText m textAddC) (m.labels a!"tch") ∧
      compose (Pa.psaf m) (isoText m textAddC) (m.labels a!"chch") := by
  obtain ⟨h0, h3, h4⟩ := pa_pronunciation_violated m
  have key : ∀ {x y}, Still x → compose (isoToTxn m ++ Pa.txn) (isoText m textAddC) x →
      compose (TRANSLIT_BY_PSA ++ printOnlyLtn m) x y → compose (Pa.psaf m) (isoText m textAddC) y := by
    intro x y hs hx hy
    rw [Pa.psaf, TXN_TO_PSAF, List.append_assoc (TXN_TO_PSA_COMMON ++ TRANSLIT_LONG)]
    exact (compose_append ..).2 ⟨_, hx, (compose_append ..).2
      ⟨_, (idL_append (id_COMMON hs) (id_LONG hs)).compose, hy⟩⟩
  exact ⟨h0, key (.inl rfl) h3 (addT m).1, key (.inr rfl) h4 (addT m).2⟩

/-- C90, Punjabi: a text with two romanizations PSAC. -/
theorem pa_psac_violated (m : Mode) :
    IsIso textAddC ∧ compose (Pa.psac m) (isoText m textAddC) (m.labels a!"tch") ∧
      compose (Pa.psac m) (isoText m textAddC) (m.labels a!"ch") := by
  obtain ⟨h0, h3, h4⟩ := pa_pronunciation_violated m
  have key : ∀ {x y z}, Still x → compose (isoToTxn m ++ Pa.txn) (isoText m textAddC) x →
      compose (TRANSLIT_BY_PSA ++ printOnlyLtn m) x y → compose REMOVE_REPEATED_LTN y z →
      compose (Pa.psac m) (isoText m textAddC) z := by
    intro x y z hs hx hy hz
    rw [Pa.psac, TXN_TO_PSAC, List.append_assoc (TXN_TO_PSA_COMMON ++ IGNORE_LONG)]
    exact (compose_append ..).2 ⟨_, hx, (compose_append ..).2 ⟨_, (compose_append ..).2
      ⟨_, (idL_append (id_COMMON hs) (id_IGN hs)).compose, hy⟩, hz⟩⟩
  have e : ∀ s : Str, (∀ c ∈ s, c < 128) → m.labels s = s := fun s hs => labels_ascii m hs
  refine ⟨h0, key (.inl rfl) h3 (addT m).1 ?_, key (.inr rfl) h4 (addT m).2 ?_⟩
  · rw [e _ (by decide), REMOVE_REPEATED_LTN, removeRepeated_eq, removeRepeated_eq]
    exact ⟨a!"tch", evB_iff (by decide +kernel), evB_iff (by decide +kernel)⟩
  · rw [e _ (by decide), e _ (by decide), REMOVE_REPEATED_LTN, removeRepeated_eq, removeRepeated_eq]
    exact ⟨a!"ch", evB_iff (by decide +kernel), evB_iff (by decide +kernel)⟩

end Nisaba.Props
