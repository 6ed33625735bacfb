import Verif.Lemmas.NtBlock
/-!
# Printing of romanizations and transcriptions
-/
namespace Nisaba.NT

/-! ## Blocks: a last part of a grammar -/

/-- A list of stages with exactly one output, which has a property. -/
def Blk (P : List Tok → Prop) (rs : List Rel) (good : Str → Prop) : Prop :=
  ∀ ts, P ts → ∃ y, good y ∧ compose rs (enc ts) y ∧ ∀ z, compose rs (enc ts) z → z = y

theorem Blk.after {P Q : List Tok → Prop} {rs ss : List Rel} {good : Str → Prop}
    (h : StD P Q (compose rs)) (k : Blk Q ss good) : Blk P (rs ++ ss) good := by
  intro ts hts
  obtain ⟨y, hy⟩ := h.1.2 ts hts
  obtain ⟨us, rfl, hq, _⟩ := h.1.1 ts hts y hy
  obtain ⟨z, h1, h2, h3⟩ := k us hq
  refine ⟨z, h1, (compose_append ..).2 ⟨_, hy, h2⟩, ?_⟩
  intro z' hz'
  obtain ⟨u, hu, hz'⟩ := (compose_append ..).1 hz'
  rw [h.2 _ _ _ hu hy] at hz'
  exact h3 z' hz'

/-- A list of stages with outputs, all of which have a property. -/
def BlkE (P : List Tok → Prop) (rs : List Rel) (good : Str → Prop) : Prop :=
  ∀ ts, P ts → (∃ y, compose rs (enc ts) y) ∧ ∀ z, compose rs (enc ts) z → good z

theorem Blk.blkE {P : List Tok → Prop} {rs : List Rel} {good : Str → Prop} (h : Blk P rs good) :
    BlkE P rs good := by
  intro ts hts
  obtain ⟨y, h1, h2, h3⟩ := h ts hts
  exact ⟨⟨y, h2⟩, fun z hz => by rw [h3 z hz]; exact h1⟩

theorem BlkE.after {P Q : List Tok → Prop} {rs ss : List Rel} {good : Str → Prop}
    (h : St P Q (compose rs)) (k : BlkE Q ss good) : BlkE P (rs ++ ss) good := by
  intro ts hts
  obtain ⟨y, hy⟩ := h.2 ts hts
  constructor
  · obtain ⟨us, rfl, hq, _⟩ := h.1 ts hts y hy
    obtain ⟨z, hz⟩ := (k us hq).1
    exact ⟨z, (compose_append ..).2 ⟨_, hy, hz⟩⟩
  · intro z hz
    obtain ⟨u, hu, hz⟩ := (compose_append ..).1 hz
    obtain ⟨us, rfl, hq, _⟩ := h.1 ts hts u hu
    exact (k us hq).2 z hz

theorem Blk.mono {P P' : List Tok → Prop} {rs : List Rel} {good : Str → Prop} (h : Blk P rs good)
    (hp : ∀ ts, P' ts → P ts) : Blk P' rs good := fun ts hts => h ts (hp ts hts)

/-! ## Printing of translits -/

/-- Stages that keep phonemes. -/
def KeepL (rs : List Rel) : Prop := ∀ R ∈ rs, ∀ x y, R x y → 123 ∈ x → 123 ∈ y

theorem keep_compose {rs : List Rel} (h : KeepL rs) {x y : Str} (hc : compose rs x y)
    (hx : 123 ∈ x) : 123 ∈ y := by
  induction rs generalizing x with
  | nil => exact (show x = y from hc) ▸ hx
  | cons r rs ih =>
    rw [compose_cons] at hc
    obtain ⟨u, hu, hc⟩ := hc
    exact ih (fun R hR => h R (by simp [hR])) hc (h r (by simp) x u hu hx)

def keepB (rs : List (Str × Str)) : Bool := rs.all fun r => r.1.all fun c => !Nat.beq c 123

theorem keep_of_check {rs : List (Str × Str)} (h : keepB rs = true) (L R : Lang) :
    ∀ x y, cdrewrite (rules rs) L R x y → 123 ∈ x → 123 ∈ y := by
  intro x y hxy hx
  refine cdr_keeps ?_ hxy.2.2 (by simpa using hx)
  intro l r hm hc
  have := List.all_eq_true.1 (List.all_eq_true.1 h _ hm) 123 hc
  exact absurd this (by decide)

theorem keepL_nil : KeepL [] := by intro R hR; cases hR
theorem keepL_cons {R : Rel} {rs : List Rel} (h : ∀ x y, R x y → 123 ∈ x → 123 ∈ y)
    (k : KeepL rs) : KeepL (R :: rs) := by
  intro S hS
  rw [List.mem_cons] at hS
  rcases hS with rfl | hS
  exacts [h, k S hS]

/-- The stages between `TRANSLIT_BY_PSA` and printing. -/
def mids : List Rel := Rom.CC_TO_CCH ++ Rom.CCH_TO_CHH ++ Rom.S_SHSH_TO_SSH

section
set_option maxRecDepth 100000
attribute [local irreducible] Brh.gr Psa.ph Ltn.tr

theorem keep_mids : KeepL mids := by
  unfold mids Rom.CC_TO_CCH Rom.CCH_TO_CHH Rom.S_SHSH_TO_SSH
  simp only [List.cons_append, List.nil_append]
  repeat refine keepL_cons (by nt_norm; exact keep_of_check (by decide +kernel) _ _) ?_
  exact keepL_nil

end

theorem st0_mids : StD (OK M0) (OK M0) (compose mids) :=
  stsL_compose (stsL_append (stsL_append Rom.st0_CC_TO_CCH Rom.st0_CCH_TO_CHH)
    Rom.st0_S_SHSH_TO_SSH) (by simp)

/-- Lowercase ASCII letters. -/
def Lower (y : Str) : Prop := ∀ c ∈ y, 97 ≤ c ∧ c ≤ 122
def lowerB (y : Str) : Bool := y.all fun c => Nat.ble 97 c && Nat.ble c 122

theorem lowerB_iff {y : Str} : lowerB y = true ↔ Lower y := by
  simp only [lowerB, Lower, List.all_eq_true, Bool.and_eq_true, Nat.ble_eq]

theorem labels_ascii (m : Mode) {y : Str} (h : ∀ c ∈ y, c < 128) : m.labels y = y := by
  cases m with
  | utf8 => rfl
  | byte =>
    show y.flatMap Utf8.encodeRaw = y
    induction y with
    | nil => rfl
    | cons c y ih =>
      rw [List.flatMap_cons, ih fun d hd => h d (by simp [hd])]
      have := h c (by simp)
      simp [Utf8.encodeRaw, this]

theorem Lower.ascii {y : Str} (h : Lower y) : ∀ c ∈ y, c < 128 := fun c hc => by
  have := h c hc; omega

/-- The glyph of a name of translits. -/
def glyphOf (s : Str) : Str := (((Ltn.CHARS).find? fun c => seq c.typ s).map Chr.glyph).getD []

/-- What is printed for a symbol. -/
def prTok (m : Mode) : Tok → Str
  | .t s => m.labels (glyphOf s)
  | _ => []

def prTab (m : Mode) : List (Str × Str) := Ltn.CHARS.map fun c => (c.tr, m.labels c.glyph)

set_option maxRecDepth 100000 in
theorem ltn_names : (Ltn.CHARS.all fun c => nameB c.typ && seq c.glyph (glyphOf c.typ)) = true := by
  decide +kernel

set_option maxRecDepth 100000 in
theorem ltn_lower : (trNames.all fun s => lowerB (glyphOf s)) = true := by decide +kernel

theorem printGlyph_eq (m : Mode) : printGlyph m Ltn.CHARS = StarR (rules (prTab m)) := by
  rw [printGlyph, unionR_map]; rfl

theorem prTab_tok (m : Mode) : ∀ l r, (l, r) ∈ prTab m →
    ∃ a : Tok, a.plain ∧ l = enc1 a ∧ r = prTok m a := by
  intro l r h
  obtain ⟨c, hc, he⟩ := List.mem_map.1 h
  injection he with h1 h2
  subst h1; subst h2
  have h3 := List.all_eq_true.1 ltn_names c hc
  rw [Bool.and_eq_true] at h3
  exact ⟨.t c.typ, nameB_iff.1 h3.1, rfl, by rw [prTok, ← seq_eq.1 h3.2]⟩

theorem trNames_prTab (m : Mode) {s : Str} (h : s ∈ trNames) :
    (enc1 (.t s), prTok m (.t s)) ∈ prTab m := by
  obtain ⟨c, hc, rfl⟩ := List.mem_map.1 h
  have hc' : c ∈ Ltn.CHARS := by
    simp only [Ltn.CHARS, List.mem_append] at hc ⊢
    tauto
  have h3 := List.all_eq_true.1 ltn_names c hc'
  rw [Bool.and_eq_true] at h3
  exact List.mem_map.2 ⟨c, hc', by rw [prTok, ← seq_eq.1 h3.2]; rfl⟩

theorem prTok_lower (m : Mode) {s : Str} (h : s ∈ trNames) : Lower (prTok m (.t s)) := by
  have h1 := lowerB_iff.1 (List.all_eq_true.1 ltn_lower s h)
  rw [prTok, labels_ascii m h1.ascii]
  exact h1

/-- Without phonemes in the language all right sides are translits. -/
theorem M0_all : (allCl.all fun x => decide (δ M0 .c x = .z) ||
    (decide (x = .ga ∨ x = .g ∨ x = .eq ∨ x = .t) && decide (δ M0 .c x = .c))) = true := by
  decide +kernel

theorem run_M0 {ts : List Tok} (h : acc (run M0 .c ts) = true) : NoP ts := by
  induction ts with
  | nil => intro a ha; cases ha
  | cons a ts ih =>
    rw [NT.run] at h
    have h1 := List.all_eq_true.1 M0_all (cls a) (mem_allCl _)
    rw [Bool.or_eq_true, Bool.and_eq_true] at h1
    rcases h1 with h1 | ⟨h1, h2⟩
    · rw [of_decide_eq_true h1, run_z] at h; cases h
    · rw [of_decide_eq_true h2] at h
      intro b hb
      rw [List.mem_cons] at hb
      rcases hb with rfl | hb
      · exact of_decide_eq_true h1
      · exact ih h b hb

theorem noP_isR {a : Tok} (h : cls a = .ga ∨ cls a = .g ∨ cls a = .eq ∨ cls a = .t)
    (hr : isR a = true) : ∃ s ∈ trNames, a = .t s := by
  cases a with
  | g s => cases hr
  | eq => cases hr
  | t s =>
    rcases h with h | h | h | h
    · exfalso; revert h; rw [cls]; cases trNames.any (seq s) <;> simp
    · exfalso; revert h; rw [cls]; cases trNames.any (seq s) <;> simp
    · exfalso; revert h; rw [cls]; cases trNames.any (seq s) <;> simp
    · obtain ⟨s', h1, h2⟩ := cls_t_tok h
      injection h1 with h1
      subst h1
      exact ⟨s, h2, rfl⟩
  | p s =>
    exfalso
    revert h
    rw [cls]
    generalize simNames.any (seq s) = b
    cases seq s a!"a" <;> cases seq s a!"i" <;> cases seq s a!"u" <;> cases seq s a!"t" <;>
      cases seq s a!"d" <;> cases seq s a!"sh" <;> cases seq s a!"zh" <;> cases seq s a!"+" <;>
      cases seq s a!":h" <;> cases seq s a!"H" <;> cases b <;> (intro h; rcases h with h | h | h | h <;> cases h)

/-- Inputs of the printer. -/
theorem pr_chars {m : Mode} {z y : Str} (h : StarR (rules (prTab m)) z y) {c : Nat} (hc : c ∈ z) :
    c ≠ 60 ∧ c ≠ 61 ∧ c ≠ 123 := by
  obtain ⟨u, v, hm, hu⟩ := starR_chars h hc
  obtain ⟨d, hd, he⟩ := List.mem_map.1 hm
  injection he with h1 _
  subst h1
  have h3 := List.all_eq_true.1 ltn_names d hd
  rw [Bool.and_eq_true] at h3
  have h4 := nameB_iff.1 h3.1
  simp only [Chr.tr, encloseTranslit, GRAVE, List.mem_cons, List.mem_append, List.not_mem_nil,
    or_false] at hu
  rcases hu with rfl | hu | rfl
  · decide
  · have := nameChar_lt (h4 c hu); omega
  · decide

/-- Printing of a sequence of alignments with translits. -/
theorem print_blk (m : Mode) : Blk (OK M0) (printOnlyLtn m) Lower := by
  intro vs hv
  have hn := run_M0 hv.1
  have hf : ∀ a ∈ vs.filter isR, ∃ s ∈ trNames, a = .t s := by
    intro a ha
    rw [List.mem_filter] at ha
    exact noP_isR (hn a ha.1) ha.2
  have hpl : Plain (vs.filter isR) := fun a ha => hv.plain a (List.mem_filter.1 ha).1
  have hx := extract_iff hv.plain
  refine ⟨(vs.filter isR).flatMap (prTok m), ?_, ?_, ?_⟩
  · intro c hc
    rw [List.mem_flatMap] at hc
    obtain ⟨a, ha, hc⟩ := hc
    obtain ⟨s, hs, rfl⟩ := hf a ha
    exact prTok_lower m hs c hc
  · rw [printOnlyLtn, printOnlyGlyph, compose_cons]
    refine ⟨_, hx.1, ?_⟩
    show printGlyph m Ltn.CHARS _ _
    rw [printGlyph_eq]
    refine starR_toks_out ?_
    intro a ha
    obtain ⟨s, hs, rfl⟩ := hf a ha
    exact trNames_prTab m hs
  · intro z hz
    rw [printOnlyLtn, printOnlyGlyph, compose_cons] at hz
    obtain ⟨u, hu, hz⟩ := hz
    change printGlyph m Ltn.CHARS _ _ at hz
    rw [printGlyph_eq] at hz
    have := hx.2 u hu (fun hc => (pr_chars hz hc).1 rfl) (fun hc => (pr_chars hz hc).2.1 rfl)
    subst this
    exact (starR_toks (prTab_tok m) hpl hz).1

/-- The printer rejects phonemes. -/
theorem print_reject {m : Mode} {x z : Str} (h : compose (printOnlyLtn m) x z) : 123 ∉ x := by
  intro hx
  rw [printOnlyLtn, printOnlyGlyph, compose_cons] at h
  obtain ⟨u, hu, hz⟩ := h
  change printGlyph m Ltn.CHARS _ _ at hz
  rw [printGlyph_eq] at hz
  exact (pr_chars hz (ext_keeps hu hx)).2.2 rfl

/-- Transliteration and printing, with stages between them. -/
theorem psa_blk_of {cfg : Cfg} (m : Mode) {ms : List Rel} (hm : StD (OK M0) (OK M0) (compose ms))
    (hk : KeepL ms) : Blk (OK cfg) (Rom.TRANSLIT_BY_PSA ++ (ms ++ printOnlyLtn m)) Lower := by
  intro ts hts
  obtain ⟨vs, h1, _, h3, h4⟩ := tbp_block hts
  obtain ⟨y, g1, g2, g3⟩ := Blk.after hm (print_blk m) vs h1
  refine ⟨y, g1, (compose_append ..).2 ⟨_, h3, g2⟩, ?_⟩
  intro z hz
  obtain ⟨u, hu, hz⟩ := (compose_append ..).1 hz
  have : 123 ∉ u := by
    intro hc
    obtain ⟨w, hw, hz⟩ := (compose_append ..).1 hz
    exact print_reject hz (keep_compose hk hw hc)
  rw [h4 u hu this] at hz
  exact g3 z hz

theorem psa_blk {cfg : Cfg} (m : Mode) :
    Blk (OK cfg) (Rom.TRANSLIT_BY_PSA ++ printOnlyLtn m) Lower :=
  psa_blk_of m (ms := []) ⟨st_id, fun _ _ _ h k => h.symm.trans k⟩ keepL_nil

theorem psa_mids_blk {cfg : Cfg} (m : Mode) :
    Blk (OK cfg) (Rom.TRANSLIT_BY_PSA ++ (mids ++ printOnlyLtn m)) Lower :=
  psa_blk_of m st0_mids keep_mids

/-! ## Repeated letters -/

/-- Rules with outputs of some characters. -/
theorem cdr_all {τ : Rel} {C : Cx Nat} {p : Nat → Prop} (hp : ∀ l r, τ l r → ∀ c ∈ r, p c)
    {out rest y : Str} (h : Cdr τ C out rest y) (ho : ∀ c ∈ out ++ rest, p c) : ∀ c ∈ y, p c := by
  induction h with
  | done => simpa using ho
  | insEnd h =>
    intro c hc
    rw [List.mem_append] at hc
    rcases hc with hc | hc
    exacts [ho c (by simp [hc]), hp _ _ h c hc]
  | apply h _ _ _ _ ih =>
    apply ih
    intro c hc
    simp only [List.mem_append] at hc ho
    rcases hc with (hc | hc) | hc
    exacts [ho c (.inl hc), hp _ _ h c hc, ho c (.inr (.inr hc))]
  | ins h _ _ _ ih =>
    apply ih
    intro c hc
    simp only [List.mem_append, List.mem_cons, List.not_mem_nil, or_false] at hc ho
    rcases hc with ((hc | hc) | hc) | hc
    exacts [ho c (.inl hc), hp _ _ h c hc, ho c (.inr (.inl hc)), ho c (.inr (.inr hc))]
  | copy _ _ ih =>
    apply ih
    intro c hc
    simp only [List.mem_append, List.mem_cons, List.not_mem_nil, or_false] at hc ho
    rcases hc with (hc | hc) | hc
    exacts [ho c (.inl hc), ho c (.inr (.inl hc)), ho c (.inr (.inr hc))]

/-- Functions on lowercase strings. -/
def LowerFun (R : Rel) : Prop := ∀ x, Lower x → ∃ y, Lower y ∧ R x y ∧ ∀ z, R x z → z = y

theorem Lower.over {x : Str} (h : Lower x) : Over byteLabel x := fun c hc => by
  have := h c hc; unfold byteLabel; omega

theorem lowerFun_of_check {rs : List (Str × Str)}
    (h : (detCheck false rs && rs.all fun r => lowerB r.2) = true) (L R : Lang) :
    LowerFun (cdrewrite (rules rs) L R) := by
  rw [Bool.and_eq_true] at h
  intro x hx
  obtain ⟨y, hy⟩ := cdr_total (C := ctxOf L R) (τ := rules rs) (fun l r hm => detCheck_ne h.1 hm) [] x
  have hl : Lower y := cdr_all (p := fun c => 97 ≤ c ∧ c ≤ 122)
    (fun l r hm => lowerB_iff.1 (List.all_eq_true.1 h.2 _ hm)) hy (by simpa [Lower] using hx)
  refine ⟨y, hl, ⟨hx.over, hl.over, hy⟩, ?_⟩
  intro z hz
  exact det_of_check h.1 L R (fun hb => by cases hb) x z y hz ⟨hx.over, hl.over, hy⟩

def repRules (cs : List Chr) : List (Str × Str) := cs.map fun c => (c.glyph ++ c.glyph, c.glyph)

theorem removeRepeated_eq (cs : List Chr) :
    removeRepeatedGlyph cs = cdrewrite (rules (repRules cs)) (str []) (str []) := by
  rw [removeRepeatedGlyph, rewriteLs, List.map_map]
  have := unionR_map cs (fun c => c.glyph ++ c.glyph) Chr.glyph
  rw [repRules, ← this]
  rfl

set_option maxRecDepth 100000 in
theorem rep_checks : (detCheck false (repRules Ltn.OTHER_SUBSTRING) &&
    (repRules Ltn.OTHER_SUBSTRING).all fun r => lowerB r.2) = true ∧
    (detCheck false (repRules Ltn.ASCII_LC) &&
    (repRules Ltn.ASCII_LC).all fun r => lowerB r.2) = true := by
  constructor <;> decide +kernel

theorem removeRepeated_fun : LowerFun (compose Rom.REMOVE_REPEATED_LTN) := by
  intro x hx
  rw [Rom.REMOVE_REPEATED_LTN, compose_cons, removeRepeated_eq, removeRepeated_eq]
  obtain ⟨y, h1, h2, h3⟩ := lowerFun_of_check rep_checks.1 (str []) (str []) x hx
  obtain ⟨z, g1, g2, g3⟩ := lowerFun_of_check rep_checks.2 (str []) (str []) y h1
  refine ⟨z, g1, ⟨y, h2, g2⟩, ?_⟩
  rintro z' ⟨y', hy', hz'⟩
  rw [h3 y' hy'] at hz'
  exact g3 z' hz'

theorem Blk.before {P : List Tok → Prop} {rs ss : List Rel} (h : Blk P rs Lower)
    (k : LowerFun (compose ss)) : Blk P (rs ++ ss) Lower := by
  intro ts hts
  obtain ⟨y, h1, h2, h3⟩ := h ts hts
  obtain ⟨z, g1, g2, g3⟩ := k y h1
  refine ⟨z, g1, (compose_append ..).2 ⟨y, h2, g2⟩, ?_⟩
  intro z' hz'
  obtain ⟨u, hu, hz'⟩ := (compose_append ..).1 hz'
  rw [h3 u hu] at hz'
  exact g3 z' hz'

theorem psac_blk {cfg : Cfg} (m : Mode) :
    Blk (OK cfg) (Rom.TRANSLIT_BY_PSA ++ printOnlyLtn m ++ Rom.REMOVE_REPEATED_LTN) Lower :=
  (psa_blk m).before removeRepeated_fun

/-! ## Transcriptions -/

/-- The table of `txn_to_ipa`. -/
def ipaRules : List (Str × Str) := (Mul.PHONEMES ++ [Mod.DURH]).map (fun p => (p.ph, p.ipa))
def ipaTab (m : Mode) : List (Str × Str) := ipaRules.map fun r => (r.1, m.labels r.2)

set_option maxRecDepth 100000 in
theorem ipa_free : freeB (ipaRules.map Prod.fst) = true := by decide +kernel
set_option maxRecDepth 100000 in
theorem ipa_det : detCheck true ipaRules = true := by decide +kernel
set_option maxRecDepth 100000 in
theorem ipa_chars : (ipaRules.all fun r => r.1.all fun c => (!Nat.beq c 60) && !Nat.beq c 61) =
    true := by decide +kernel
set_option maxRecDepth 100000 in
theorem ipa_all : ((pNames.map (fun s => enc [.p s]) ++ comps.map enc).all fun l =>
    ipaRules.any fun r => seq r.1 l) = true := by decide +kernel

theorem lsTranslitIpa_eq (m : Mode) :
    lsTranslitIpa m (Mul.PHONEMES ++ [Mod.DURH]) = StarR (rules (ipaTab m)) := by
  rw [lsTranslitIpa, unionR_map, ipaTab, ipaRules, List.map_map]; rfl

theorem ipaTab_mem {m : Mode} {u x : Str} (h : rules (ipaTab m) u x) :
    ∃ i, (u, i) ∈ ipaRules ∧ x = m.labels i := by
  obtain ⟨r, hr, he⟩ := List.mem_map.1 h
  injection he with h1 h2
  subst h1; subst h2
  exact ⟨r.2, hr, rfl⟩

/-- Printing of IPA is single valued on all strings. -/
theorem ipa_star_det (m : Mode) : Det (StarR (rules (ipaTab m))) := by
  refine starR_det ?_ ?_ ?_
  · intro u x h
    obtain ⟨i, hi, _⟩ := ipaTab_mem h
    exact detCheck_ne ipa_det hi
  · intro u x y h h'
    obtain ⟨i, hi, rfl⟩ := ipaTab_mem h
    obtain ⟨j, hj, rfl⟩ := ipaTab_mem h'
    rcases detCheck_pre ipa_det hi hj (List.prefix_refl _) with ⟨_, h2⟩ | ⟨w, hw⟩
    · rw [h2]
    · have := congrArg List.length hw
      simp at this
  · intro u x w x' h h' hw u'' x'' h''
    obtain ⟨i, hi, rfl⟩ := ipaTab_mem h
    obtain ⟨j, hj, rfl⟩ := ipaTab_mem h'
    obtain ⟨k, hk, rfl⟩ := ipaTab_mem h''
    have hfr := freeB_iff ipa_free hk
    rcases detCheck_pre ipa_det hi hj (List.prefix_append _ _) with ⟨h1, _⟩ | h1
    · exact absurd (List.append_right_eq_self.1 h1.symm) hw
    · rw [List.prefix_append_right_inj] at h1
      refine ⟨fun hp => ?_, fun hp => hfr.2 (h1.trans hp)⟩
      rcases Nat.le_total u''.length (a!"{+}").length with hl | hl
      · exact hfr.1 (List.prefix_of_prefix_length_le hp h1 hl)
      · exact hfr.2 (List.prefix_of_prefix_length_le h1 hp hl)

/-- Without translits in the language there are none. -/
theorem notr_all : ([M1, M2, M1t].all fun cfg => allQ.all fun q => decide (δ cfg q .t = .z)) =
    true := by decide +kernel

theorem run_notr {cfg : Cfg} (hc : cfg ∈ [M1, M2, M1t]) {ts : List Tok} {q : Q}
    (h : acc (run cfg q ts) = true) : ∀ a ∈ ts, cls a ≠ .t := by
  induction ts generalizing q with
  | nil => intro a ha; cases ha
  | cons a ts ih =>
    rw [NT.run] at h
    intro b hb
    rw [List.mem_cons] at hb
    rcases hb with rfl | hb
    · intro hcl
      have h1 := List.all_eq_true.1 (List.all_eq_true.1 notr_all cfg hc) q (mem_allQ q)
      rw [hcl, of_decide_eq_true h1, run_z] at h
      cases h
    · exact ih h b hb

/-- A sequence of units of phonemes is in the star of the table. -/
theorem ipa_units (m : Mode) (us : List (List Tok)) (hu : ∀ u ∈ us, Unit' u)
    (ht : ∀ a ∈ us.flatten, cls a ≠ .t) :
    ∃ y, StarR (rules (ipaTab m)) (enc (us.flatten.filter isR)) y := by
  induction us with
  | nil => exact ⟨[], .nil⟩
  | cons u us ih =>
    obtain ⟨y, hy⟩ := ih (fun u h => hu u (by simp [h])) (fun a ha => ht a (by simp at ha ⊢; exact .inr ha))
    rw [List.flatten_cons, List.filter_append, enc_append]
    have tab : ∀ l : Str, l ∈ pNames.map (fun s => enc [.p s]) ++ comps.map enc →
        ∃ i, (l, i) ∈ ipaTab m := by
      intro l hl
      have h1 := List.all_eq_true.1 ipa_all l hl
      rw [List.any_eq_true] at h1
      obtain ⟨⟨l', i⟩, hr, h2⟩ := h1
      have h3 : l' = l := seq_eq.1 h2
      subst h3
      exact ⟨m.labels i, List.mem_map.2 ⟨_, hr, rfl⟩⟩
    have hU := hu u (by simp)
    cases hU with
    | g s h => exact ⟨y, by simpa [isR, enc] using hy⟩
    | eq => exact ⟨y, by simpa [isR, enc] using hy⟩
    | t s h =>
      exfalso
      refine ht (.t s) (by simp) ?_
      rw [cls, show trNames.any (seq s) = true from List.any_eq_true.2 ⟨s, h, seq_eq.2 rfl⟩]
      rfl
    | p s h =>
      obtain ⟨i, hi⟩ := tab (enc [.p s]) (List.mem_append_left _ (List.mem_map.2 ⟨s, h, rfl⟩))
      exact ⟨i ++ y, .cons hi hy⟩
    | comp _ h =>
      obtain ⟨i, hi⟩ := tab (enc u) (List.mem_append_right _ (List.mem_map.2 ⟨u, h, rfl⟩))
      have hf : u.filter isR = u := by
        have hc : (comps.all fun u => u.all isR) = true := by decide
        rw [List.filter_eq_self]
        exact List.all_eq_true.1 (List.all_eq_true.1 hc u h)
      rw [hf]
      exact ⟨i ++ y, .cons hi hy⟩

theorem ipa_blk {cfg : Cfg} (hc : cfg ∈ [M1, M2, M1t]) (m : Mode) :
    Blk (OK cfg) (txnToIpa m) (fun _ => True) := by
  intro ts hts
  have hx := extract_iff hts.plain
  have hy : ∃ y, StarR (rules (ipaTab m)) (enc (ts.filter isR)) y := by
    obtain ⟨us, h1, h2⟩ := hts.units
    rw [← h1]
    exact ipa_units m us h2 (by rw [h1]; exact run_notr hc hts.1)
  obtain ⟨y, hy⟩ := hy
  rw [txnToIpa, compose_cons, lsTranslitIpa_eq]
  refine ⟨y, trivial, ⟨_, hx.1, hy⟩, ?_⟩
  rintro z ⟨u, hu, hz⟩
  change StarR _ u z at hz
  have hch : ∀ c ∈ u, c ≠ 60 ∧ c ≠ 61 := by
    intro c hcu
    obtain ⟨l, x, hm, hl⟩ := starR_chars hz hcu
    obtain ⟨i, hi, _⟩ := ipaTab_mem hm
    have h1 := List.all_eq_true.1 (List.all_eq_true.1 ipa_chars _ hi) c hl
    rw [Bool.and_eq_true] at h1
    constructor <;> (rintro rfl; simp at h1)
  have := hx.2 u hu (fun h => (hch _ h).1 rfl) (fun h => (hch _ h).2 rfl)
  subst this
  exact ipa_star_det m _ _ _ hz hy

end Nisaba.NT
