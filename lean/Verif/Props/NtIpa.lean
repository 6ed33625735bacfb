import Verif.Props.NtLang
/-!
# natural_translit: transcriptions and romanizations of sequences of alignments (C91)
-/
namespace Nisaba.Props
open Nisaba Nisaba.NT

/-- Sequences of symbols: graphemes, signs `=`, phonemes and translits. -/
def Symbols : Lang := Star (oneOf [GRAPHEME, str [EQ], PHONEME, TRANSLIT])

theorem symbols_enc {x : Str} (h : Symbols x) : ∃ ts, x = enc ts ∧ Plain ts := by
  induction h with
  | nil => exact ⟨[], rfl, (fun a ha => by cases ha)⟩
  | cons h k ih =>
    obtain ⟨ts, rfl, hts⟩ := ih
    obtain ⟨l, hl, hu⟩ := h
    simp only [List.mem_cons, List.not_mem_nil, or_false] at hl
    rcases hl with rfl | rfl | rfl | rfl
    · obtain ⟨_, _, rfl, rfl, w, _, rfl, hw, rfl⟩ := hu
      exact ⟨.g w :: ts, rfl, plain_cons.2 ⟨fun c hc => symChar_name (hw c hc), hts⟩⟩
    · rw [show _ = [EQ] from hu]
      exact ⟨.eq :: ts, rfl, plain_cons.2 ⟨(fun c hc => by cases hc), hts⟩⟩
    · obtain ⟨_, _, rfl, rfl, w, _, rfl, hw, rfl⟩ := hu
      exact ⟨.p w :: ts, rfl, plain_cons.2 ⟨fun c hc => symChar_name (hw c hc), hts⟩⟩
    · obtain ⟨_, _, rfl, rfl, w, _, rfl, hw, rfl⟩ := hu
      exact ⟨.t w :: ts, rfl, plain_cons.2 ⟨fun c hc => symChar_name (hw c hc), hts⟩⟩

theorem star_list_iff {β : Type} (es : List β) (f g : β → Str) (x y : Str) :
    StarR (unionR (es.map fun e => cross (str (f e)) (str (g e)))) x y ↔
      ∃ ps : List β, (∀ p ∈ ps, p ∈ es) ∧ x = ps.flatMap f ∧ y = ps.flatMap g := by
  constructor
  · intro h
    induction h with
    | nil => exact ⟨[], (fun p hp => by cases hp), rfl, rfl⟩
    | cons h k ih =>
      obtain ⟨ps, h1, rfl, rfl⟩ := ih
      obtain ⟨r, hr, hx⟩ := h
      obtain ⟨e, he, rfl⟩ := List.mem_map.1 hr
      obtain ⟨rfl, rfl⟩ := hx
      refine ⟨e :: ps, ?_, rfl, rfl⟩
      intro p hp
      rw [List.mem_cons] at hp
      rcases hp with rfl | hp
      exacts [he, h1 p hp]
  · rintro ⟨ps, h1, rfl, rfl⟩
    induction ps with
    | nil => exact .nil
    | cons p ps ih =>
      rw [List.flatMap_cons, List.flatMap_cons]
      exact .cons ⟨_, List.mem_map.2 ⟨p, h1 p (by simp), rfl⟩, rfl, rfl⟩
        (ih fun q hq => h1 q (by simp [hq]))

theorem labels_flatMap {β : Type} (m : Mode) (ps : List β) (f : β → Str) :
    m.labels (ps.flatMap f) = ps.flatMap fun p => m.labels (f p) := by
  induction ps with
  | nil => exact labels_nil m
  | cons p ps ih => rw [List.flatMap_cons, labels_append, ih, List.flatMap_cons]

/-- Extraction followed by a table of symbols without the characters `<` and `=`. -/
theorem extract_table {β : Type} {es : List β} {f g : β → Str}
    (hc : ∀ e ∈ es, ∀ c ∈ f e, c ≠ 60 ∧ c ≠ 61) {x : Str} (hx : Symbols x) (y : Str) :
    compose [EXTRACT_RIGHT_SIDE, StarR (unionR (es.map fun e => cross (str (f e)) (str (g e))))] x y ↔
      ∃ ps : List β, (∀ p ∈ ps, p ∈ es) ∧ Spec.rightSides x = ps.flatMap f ∧ y = ps.flatMap g := by
  obtain ⟨ts, rfl, hts⟩ := symbols_enc hx
  have he := extract_iff hts
  rw [(sides_enc hts).2, compose_cons]
  constructor
  · rintro ⟨u, hu, hy⟩
    change StarR _ u y at hy
    obtain ⟨ps, h1, rfl, rfl⟩ := (star_list_iff ..).1 hy
    have hch : ∀ c ∈ ps.flatMap f, c ≠ 60 ∧ c ≠ 61 := by
      intro c hcm
      obtain ⟨p, hp, hcp⟩ := List.mem_flatMap.1 hcm
      exact hc p (h1 p hp) c hcp
    exact ⟨ps, h1, (he.2 _ hu (fun h => (hch _ h).1 rfl) (fun h => (hch _ h).2 rfl)).symm, rfl⟩
  · rintro ⟨ps, h1, h2, rfl⟩
    refine ⟨_, he.1, ?_⟩
    change StarR _ _ _
    exact (star_list_iff ..).2 ⟨ps, h1, h2, rfl⟩

/-- C91. The transcription of a sequence of symbols: its right sides read as phonemes of the
multilingual inventory and the sign of length, printed one by one. -/
theorem txn_to_ipa_iff (m : Mode) (x : Str) (hx : Symbols x) (y : Str) :
    compose (txnToIpa m) x y ↔
      ∃ ps : List Phn, (∀ p ∈ ps, p ∈ Mul.PHONEMES ++ [Mod.DURH]) ∧
        Spec.rightSides x = ps.flatMap Phn.ph ∧ y = m.labels (ps.flatMap Phn.ipa) := by
  have h := extract_table (es := Mul.PHONEMES ++ [Mod.DURH]) (f := Phn.ph)
    (g := fun p => m.labels p.ipa) (by
      intro e he c hc
      have h1 := List.all_eq_true.1 (List.all_eq_true.1 ipa_chars _ (List.mem_map.2 ⟨e, he, rfl⟩)) c hc
      rw [Bool.and_eq_true] at h1
      constructor <;> (rintro rfl; simp at h1)) hx y
  simp only [labels_flatMap]
  exact h

/-- C91. A string of phonemes is read in one way up to the transcription: no two sequences of
phonemes are written alike and transcribed differently. -/
theorem ipa_unambiguous (ps qs : List Phn) (hp : ∀ p ∈ ps, p ∈ Mul.PHONEMES ++ [Mod.DURH])
    (hq : ∀ p ∈ qs, p ∈ Mul.PHONEMES ++ [Mod.DURH]) (h : ps.flatMap Phn.ph = qs.flatMap Phn.ph) :
    ps.flatMap Phn.ipa = qs.flatMap Phn.ipa := by
  have d := ipa_star_det .utf8
  rw [← lsTranslitIpa_eq] at d
  exact d _ _ _ ((star_list_iff ..).2 ⟨ps, hp, rfl, rfl⟩) ((star_list_iff ..).2 ⟨qs, hq, h, rfl⟩)

/-- C91. Printing of the Latin letters of a sequence of symbols: its right sides read as translits. -/
theorem print_ltn_iff (m : Mode) (x : Str) (hx : Symbols x) (y : Str) :
    compose (printOnlyLtn m) x y ↔
      ∃ cs : List Chr, (∀ c ∈ cs, c ∈ Ltn.CHARS) ∧
        Spec.rightSides x = cs.flatMap Chr.tr ∧ y = m.labels (cs.flatMap Chr.glyph) := by
  have hch : (Ltn.CHARS.all fun e => e.tr.all fun c => (!Nat.beq c 60) && !Nat.beq c 61) = true := by
    set_option maxRecDepth 100000 in decide +kernel
  have h := extract_table (es := Ltn.CHARS) (f := Chr.tr)
    (g := fun p => m.labels p.glyph) (by
      intro e he c hc
      have h1 := List.all_eq_true.1 (List.all_eq_true.1 hch _ he) c hc
      rw [Bool.and_eq_true] at h1
      constructor <;> (rintro rfl; simp at h1)) hx y
  simp only [labels_flatMap]
  exact h

theorem star_mono {a b : Lang} (h : ∀ x, a x → Star b x) : ∀ x, Star a x → Star b x := by
  have app : ∀ {x y}, Star b x → Star b y → Star b (x ++ y) := by
    intro x y hx hy
    induction hx with
    | nil => exact hy
    | cons hu _ ih => rw [List.append_assoc]; exact .cons hu ih
  intro x hx
  induction hx with
  | nil => exact .nil
  | cons hu _ ih => exact app (h _ hu) ih

theorem star_append {b : Lang} {x y : Str} (hx : Star b x) (hy : Star b y) : Star b (x ++ y) := by
  induction hx with
  | nil => exact hy
  | cons hu _ ih => rw [List.append_assoc]; exact .cons hu ih

theorem symbols_one {l : Lang} (hl : l ∈ [GRAPHEME, str [EQ], PHONEME, TRANSLIT]) {x : Str} (h : l x) :
    Symbols x := by
  have := Star.cons (a := oneOf [GRAPHEME, str [EQ], PHONEME, TRANSLIT]) (v := []) ⟨l, hl, h⟩ .nil
  rwa [List.append_nil] at this

/-- Sequences of alignments are sequences of symbols. -/
theorem aligned_symbols {x : Str} (h : Spec.Aligned x) : Symbols x := by
  refine star_mono (fun x hx => ?_) x h
  obtain ⟨u, _, rfl, hu, v, _, rfl, hv, e, w, rfl, he, hw⟩ := hx
  refine star_append (symbols_one (by simp) hu) (star_append ?_ (star_append (symbols_one (by simp) he) ?_))
  · exact star_mono (fun x hx => symbols_one (by simp) hx) v hv
  · exact star_mono (fun x hx => symbols_one (by simp) hx) w hw

/-- The transcription of a text is the sequence of the IPA symbols of the phonemes on the right sides
of its pronunciation, in both modes. -/
def Transcribes (txn : List Rel) (ipa : Mode → List Rel) (ok : List Chr → Prop) : Prop :=
  ∀ cs, IsIso cs → ok cs → ∃ ps : List Phn, (∀ p ∈ ps, p ∈ Mul.PHONEMES ++ [Mod.DURH]) ∧
    ∀ m, (∃ z, compose (G2p.isoToTxn m ++ txn) (isoText m cs) z ∧ Spec.rightSides z = ps.flatMap Phn.ph) ∧
      ∀ y, compose (ipa m) (isoText m cs) y ↔ y = m.labels (ps.flatMap Phn.ipa)

theorem transcribes_of {txn : List Rel} {ipa : Mode → List Rel} {ok : List Chr → Prop}
    (hi : ∀ m, ipa m = G2p.isoToTxn m ++ txn ++ txnToIpa m)
    (hp : ∀ cs, IsIso cs → ok cs → ∃ z, (∀ z', compose (G2p.isoToTxn .utf8 ++ txn) (isoText .utf8 cs) z' ↔ z' = z) ∧
      Spec.Aligned z)
    (ho : ∀ cs, IsIso cs → ok cs → ∃ y, compose (ipa .utf8) (isoText .utf8 cs) y) :
    Transcribes txn ipa ok := by
  intro cs h hok
  obtain ⟨z, hz, ha⟩ := hp cs h hok
  obtain ⟨y, hy⟩ := ho cs h hok
  have hm : ∀ m z', compose (G2p.isoToTxn m ++ txn) (isoText m cs) z' ↔ z' = z := by
    intro m z'
    rw [← hz, G2p.isoToTxn, G2p.isoToTxn, List.append_assoc, List.append_assoc]
    exact (iso_front m h _ z').trans (iso_front .utf8 h _ z').symm
  have hs := aligned_symbols ha
  rw [hi] at hy
  obtain ⟨z', h1, h2⟩ := (compose_append ..).1 hy
  rw [(hm _ _).1 h1] at h2
  obtain ⟨ps, p1, p2, p3⟩ := (txn_to_ipa_iff _ _ hs _).1 h2
  refine ⟨ps, p1, fun m => ⟨⟨z, (hm m z).2 rfl, p2⟩, fun y' => ?_⟩⟩
  rw [hi, compose_append]
  constructor
  · rintro ⟨z', h1, h2⟩
    rw [(hm _ _).1 h1] at h2
    obtain ⟨qs, q1, q2, q3⟩ := (txn_to_ipa_iff _ _ hs _).1 h2
    rw [q3, ipa_unambiguous qs ps q1 p1 (q2.symm.trans p2)]
  · rintro rfl
    exact ⟨z, (hm m z).2 rfl, (txn_to_ipa_iff _ _ hs _).2 ⟨ps, p1, p2, rfl⟩⟩

/-- C91, Telugu. -/
theorem te_transcription : Transcribes Te.txn Te.ipa (fun _ => True) :=
  transcribes_of (fun _ => rfl)
    (fun cs h _ => by obtain ⟨z, h1, h2, _⟩ := te_pronunciation .utf8 cs h; exact ⟨z, h1, h2⟩)
    (fun cs h _ => by obtain ⟨y, _, h1⟩ := te_ipa.1 .utf8 cs h; exact ⟨y, (h1 y).2 rfl⟩)

/-- C91, Kannada. -/
theorem kn_transcription : Transcribes Kn.txn Kn.ipa (fun _ => True) :=
  transcribes_of (fun _ => rfl)
    (fun cs h _ => by obtain ⟨z, h1, h2, _⟩ := kn_pronunciation .utf8 cs h; exact ⟨z, h1, h2⟩)
    (fun cs h _ => by obtain ⟨y, _, h1⟩ := kn_ipa.1 .utf8 cs h; exact ⟨y, (h1 y).2 rfl⟩)

/-- C91, Hindi. -/
theorem hi_transcription : Transcribes Hi.txn Hi.ipa (fun _ => True) :=
  transcribes_of (fun _ => rfl)
    (fun cs h _ => by obtain ⟨z, h1, h2, _⟩ := hi_pronunciation .utf8 cs h; exact ⟨z, h1, h2⟩)
    (fun cs h _ => by obtain ⟨y, _, h1⟩ := hi_ipa.1 .utf8 cs h; exact ⟨y, (h1 y).2 rfl⟩)

/-- C91, Marathi. -/
theorem mr_transcription : Transcribes Mr.txn Mr.ipa (fun _ => True) :=
  transcribes_of (fun _ => rfl)
    (fun cs h _ => by obtain ⟨z, h1, h2, _⟩ := mr_pronunciation .utf8 cs h; exact ⟨z, h1, h2⟩)
    (fun cs h _ => by obtain ⟨y, _, h1⟩ := mr_ipa.1 .utf8 cs h; exact ⟨y, (h1 y).2 rfl⟩)

/-- C91, Bengali. -/
theorem bn_transcription : Transcribes Bn.txn Bn.ipa (fun _ => True) :=
  transcribes_of (fun _ => rfl)
    (fun cs h _ => by obtain ⟨z, h1, h2, _⟩ := bn_pronunciation .utf8 cs h; exact ⟨z, h1, h2⟩)
    (fun cs h _ => by obtain ⟨y, _, h1⟩ := bn_ipa.1 .utf8 cs h; exact ⟨y, (h1 y).2 rfl⟩)

/-- C91, Tamil. -/
theorem ta_transcription : Transcribes Ta.txn Ta.ipa (fun _ => True) :=
  transcribes_of (fun _ => rfl)
    (fun cs h _ => by obtain ⟨z, h1, h2, _⟩ := ta_pronunciation .utf8 cs h; exact ⟨z, h1, h2⟩)
    (fun cs h _ => by obtain ⟨y, _, h1⟩ := ta_ipa.1 .utf8 cs h; exact ⟨y, (h1 y).2 rfl⟩)

/-- C91, Malayalam. -/
theorem ml_transcription : Transcribes Ml.txn Ml.ipa (fun _ => True) :=
  transcribes_of (fun _ => rfl)
    (fun cs h _ => by obtain ⟨z, h1, h2, _⟩ := ml_pronunciation .utf8 cs h; exact ⟨z, h1, h2⟩)
    (fun cs h _ => by obtain ⟨y, _, h1⟩ := ml_ipa.1 .utf8 cs h; exact ⟨y, (h1 y).2 rfl⟩)

/-- C91, Gujarati, for texts without a diphthong. -/
theorem gu_transcription_partial : Transcribes Gu.txn Gu.ipa (NoDiphthong .utf8) :=
  transcribes_of (fun _ => rfl)
    (fun cs h hd => by obtain ⟨z, h1, h2, _⟩ := gu_pronunciation_partial .utf8 cs h hd; exact ⟨z, h1, h2⟩)
    (fun cs h hd => by obtain ⟨y, _, h1⟩ := gu_ipa_partial.1 .utf8 cs h hd; exact ⟨y, (h1 y).2 rfl⟩)

set_option maxRecDepth 100000 in
/-- The sequence `<c>={t}{+}{sh}` has the transcription of the affricate. -/
example : compose (txnToIpa .utf8) a!"<c>={t}{+}{sh}" a!"t͡ʃ" := by
  rw [txn_to_ipa_iff]
  · refine ⟨[Mul.ph a!"T_SH"], ?_, by decide +kernel, by decide +kernel⟩
    intro p hp
    rw [List.mem_singleton] at hp
    subst hp
    have h : ((Mul.PHONEMES.find? fun p => seq p.alias a!"T_SH").isSome) = true := by decide +kernel
    obtain ⟨q, hq⟩ := Option.isSome_iff_exists.1 h
    rw [Mul.ph, phnByAlias, hq]
    exact List.mem_append.2 (.inl (List.mem_of_find?_eq_some hq))
  · exact .cons (u := a!"<c>") ⟨_, List.mem_cons_self, ⟨[60], a!"c>", rfl, rfl, a!"c", a!">", rfl,
        (fun c hc => by simp at hc; subst hc; unfold symChar; decide), rfl⟩⟩ (.cons (u := [61]) ⟨str [EQ], by simp, rfl⟩
      (.cons (u := a!"{t}") ⟨PHONEME, by simp, ⟨[123], a!"t}", rfl, rfl, a!"t", a!"}", rfl,
        (fun c hc => by simp at hc; subst hc; unfold symChar; decide), rfl⟩⟩
      (.cons (u := a!"{+}") ⟨PHONEME, by simp, ⟨[123], a!"+}", rfl, rfl, a!"+", a!"}", rfl,
        (fun c hc => by simp at hc; subst hc; unfold symChar; decide), rfl⟩⟩
      (.cons (u := a!"{sh}") ⟨PHONEME, by simp, ⟨[123], a!"sh}", rfl, rfl, a!"sh", a!"}", rfl,
        (fun c hc => by simp at hc; rcases hc with rfl | rfl <;> (unfold symChar; decide)), rfl⟩⟩ .nil))))

end Nisaba.Props
