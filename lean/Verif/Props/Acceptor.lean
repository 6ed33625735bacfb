import Verif.Lemmas.Acceptor
import Verif.Props.ByteMode
import Verif.Props.Wellformed
/-!
# The normalizing acceptor (C18)
-/
namespace Nisaba.Props
open Nisaba

/-- Characters other than `[`, `]` and `\`. -/
def plainChar (c : Nat) : Prop := textChar c ∧ c ≠ 0x5B ∧ c ≠ 0x5D ∧ c ≠ 0x5C

def plainB (s : Str) : Bool := textB s && s.all fun c => !isSpecial c

theorem plainB_iff (s : Str) : plainB s = true ↔ Over plainChar s := by
  simp only [plainB, Bool.and_eq_true, textB_iff, List.all_eq_true, Over, plainChar, isSpecial,
    Bool.not_eq_true', Bool.or_eq_false_iff, beq_eq_false_iff_ne]
  constructor
  · rintro ⟨h1, h2⟩ c hc; exact ⟨h1 c hc, (h2 c hc).1.1, (h2 c hc).1.2, (h2 c hc).2⟩
  · intro h; exact ⟨fun c hc => (h c hc).1, fun c hc => ⟨⟨(h c hc).2.1, (h c hc).2.2.1⟩, (h c hc).2.2.2⟩⟩

def tablesPlainB (d : BrahmicData) : Bool :=
  (d.nfc ++ d.visualRewrite).all (fun p => plainB p.2) &&
  (d.consonant ++ d.deadConsonant ++ d.subjoined ++ d.vowelSign ++ d.vowel ++
      d.vowelLength ++ d.coda ++ d.standalone ++ d.virama ++ d.accept ++ d.preserve).all
    fun p => plainB p.1

theorem tablesPlainB_all : Data.scripts.all tablesPlainB = true := by decide +kernel

theorem goodSigma_plain {d : BrahmicData} (hd : d ∈ Data.scripts) : GoodSigma d plainChar := by
  have := List.all_eq_true.1 tablesPlainB_all d hd
  simp only [tablesPlainB, Bool.and_eq_true, List.all_eq_true, List.mem_append] at this
  obtain ⟨h1, h2⟩ := this
  refine ⟨fun c hc => (goodSigma_text hd).noGenerated c hc.1, ?_, ?_, ?_⟩
  · exact fun p hp => (plainB_iff _).1 (h1 p (Or.inl hp))
  · exact fun p hp => (plainB_iff _).1 (h1 p (Or.inr hp))
  · exact fun p hp => (plainB_iff _).1 (h2 p (by simp [hp]))

theorem wellFormed_plain {d : BrahmicData} (hd : d ∈ Data.scripts) {s : Str} (h : wellFormed d s) :
    Over plainChar s := by
  have := List.all_eq_true.1 tablesPlainB_all d hd
  simp only [tablesPlainB, Bool.and_eq_true, List.all_eq_true] at this
  exact wellFormed_over (fun p hp => (plainB_iff _).1 (this.2 p hp)) h

theorem byteWellFormed_iff {d : BrahmicData} (hd : d ∈ Data.scripts) {t : Str}
    (ht : Over textChar t) : byteWellFormed d (utf8 t) ↔ wellFormed d t := by
  rw [byteWellFormed_eq, ← encText_utf8 ht]
  constructor
  · rintro ⟨s, hs, e⟩
    have := encText_inj (fun c hc => textChar_encodable c (ht c hc))
      (fun c hc => textChar_encodable c (wellFormed_plain hd hs c hc).1) e
    exact this ▸ hs
  · intro h; exact ⟨t, h, rfl⟩

theorem utf8_plain {s : Str} (h : Over plainChar s) : ∀ b ∈ utf8 s, isSpecial b = false := by
  intro b hb
  obtain ⟨c, hc, hb⟩ := List.mem_flatMap.1 hb
  cases hs : isSpecial b with
  | false => rfl
  | true =>
    have := encodeRaw_special hb hs
    have hp := (h c hc).2
    subst this
    simp only [isSpecial, Bool.or_eq_true, beq_iff_eq] at hs
    omega

/-- The two compiled grammars of a script that the API loads: visual normalization `vn` and
well-formedness `wf`, both in byte mode. -/
structure Compiled (d : BrahmicData) (vn : Rel) (wf : Lang) : Prop where
  script : d ∈ Data.scripts
  visual : ∃ order, MarkOrder d order ∧ byteVisualNormFst d order = some vn
  wellformed : wf = byteWellFormed d

/-- `t` is the visual normal form of `s` (character mode, by C30 the same as in byte mode). -/
def VisualForm (d : BrahmicData) (s t : Str) : Prop :=
  ∃ order R, MarkOrder d order ∧ visualNormFst d textChar order = some R ∧ R s t

theorem visualForm_iff {d : BrahmicData} (hd : d ∈ Data.scripts) (s t : Str) :
    VisualForm d s t ↔ Over textChar s ∧ t = visualNorm d s := by
  constructor
  · rintro ⟨order, R, ho, hR, h⟩
    obtain ⟨R', hR', g, _⟩ := visualNorm_graph hd (goodSigma_text hd) ho
    rw [hR] at hR'; cases hR'
    exact (g _ _).1 h
  · rintro h
    obtain ⟨R', hR', g, _⟩ := visualNorm_graph hd (goodSigma_text hd)
      (order := joiners ++ d.marks) (fun _ => List.mem_append)
    exact ⟨_, R', fun _ => List.mem_append, hR', (g _ _).2 h⟩

variable {d : BrahmicData} {vn : Rel} {wf : Lang} (gen : Str → Str)

theorem vn_iff (h : Compiled d vn wf) {s : Str} (hs : Over textChar s) (b : Str) :
    vn (utf8 s) b ↔ b = utf8 (visualNorm d s) := by
  obtain ⟨order, ho, hvn⟩ := h.visual
  obtain ⟨R, Rb, hR, hRb, hag⟩ := C30_visual h.script ho
  rw [hvn] at hRb; cases hRb
  obtain ⟨R', hR', g, m⟩ := visualNorm_graph h.script (goodSigma_text h.script) ho
  rw [hR] at hR'; cases hR'
  rw [hag s b hs]
  constructor
  · rintro ⟨t, _, rfl, h⟩; rw [((g _ _).1 h).2]
  · rintro rfl; exact ⟨_, m s hs, rfl, (g _ _).2 ⟨hs, rfl⟩⟩

theorem utf8_inj {s t : Str} (hs : Over textChar s) (ht : ∀ c ∈ t, Utf8.isScalar c = true)
    (h : utf8 s = utf8 t) : s = t :=
  Utf8.encode_injective (fun c hc => (hs c hc).1) ht h

/-- Python strings: lists of code points that can be encoded (no lone surrogates). -/
def PyText (t : Str) : Prop := ∀ c ∈ t, Utf8.isScalar c = true

theorem visualNorm_text (hd : d ∈ Data.scripts) {s : Str} (hs : Over textChar s) :
    Over textChar (visualNorm d s) := by
  obtain ⟨_, _, _, m⟩ := visualNorm_graph hd (goodSigma_text hd)
    (order := joiners ++ d.marks) (fun _ => List.mem_append)
  exact m s hs

theorem applyOnText_iff (h : Compiled d vn wf) {s t : Str} (hs : Over textChar s) (ht : PyText t) :
    applyOnText gen vn s t ↔ VisualForm d s t := by
  unfold applyOnText
  rw [visualForm_iff h.script]
  constructor
  · rintro ⟨ls, h1, h2⟩
    rw [pyCompile_escape] at h1; cases h1
    have := (vn_iff h hs _).1 h2
    exact ⟨hs, (utf8_inj (visualNorm_text h.script hs) ht this.symm).symm⟩
  · rintro ⟨_, rfl⟩
    exact ⟨_, pyCompile_escape gen s, (vn_iff h hs _).2 rfl⟩

/-- C18, every word: `ApplyOnWord` never fails to normalize, and when it returns a text, that text
is the visual normal form of the word. -/
theorem C18_normal_form (h : Compiled d vn wf) {w : Str} (hw : Over textChar w) :
    ¬ applyOnWord gen vn wf w .fstInputError ∧
    ∀ t, PyText t → applyOnWord gen vn wf w (.ok t) → VisualForm d w t := by
  constructor
  · intro hf
    exact hf _ ((applyOnText_iff gen h hw (fun c hc => (visualNorm_text h.script hw c hc).1)).2
      ((visualForm_iff h.script _ _).2 ⟨hw, rfl⟩))
  · intro t ht hok
    exact (applyOnText_iff gen h hw ht).1 hok.1

theorem acceptText_plain {t : Str} (ht : Over plainChar t) (L : Lang) :
    (acceptText gen L t = .yes ↔ L (utf8 t)) ∧ (acceptText gen L t = .no ↔ ¬ L (utf8 t)) ∧
    acceptText gen L t ≠ .error := by
  unfold acceptText
  rw [pyCompile_plain gen _ (utf8_plain ht)]
  by_cases h : L (utf8 t) <;> simp [h]

/-- C18 for words without `[`, `]` and `\`: the result is the visual normal form if that is well
formed, and `IllFormedError` otherwise; there is no other outcome.
Missing for the full claim: words with one of these three characters, see `C18_brackets`. -/
theorem C18_word_partial (h : Compiled d vn wf) {w : Str} (hw : Over plainChar w) (r : NormResult)
    (hr : ∀ t, r = .ok t → PyText t) :
    applyOnWord gen vn wf w r ↔
      ∃ t, VisualForm d w t ∧
        ((wellFormed d t ∧ r = .ok t) ∨ (¬ wellFormed d t ∧ r = .illFormedError)) := by
  have hwt : Over textChar w := fun c hc => (hw c hc).1
  have hv : Over plainChar (visualNorm d w) := by
    obtain ⟨_, _, _, m⟩ := visualNorm_graph h.script (goodSigma_plain h.script)
      (order := joiners ++ d.marks) (fun _ => List.mem_append)
    exact m w hw
  have hvt : Over textChar (visualNorm d w) := fun c hc => (hv c hc).1
  have hvp : PyText (visualNorm d w) := fun c hc => (hvt c hc).1
  have acc := acceptText_plain gen hv wf
  have hwf : wf (utf8 (visualNorm d w)) ↔ wellFormed d (visualNorm d w) := by
    rw [h.wellformed, byteWellFormed_iff h.script hvt]
  rw [hwf] at acc
  have app : ∀ t, applyOnText gen vn w t → utf8 t = utf8 (visualNorm d w) := by
    rintro t ⟨ls, h1, h2⟩
    rw [pyCompile_escape] at h1; cases h1
    exact (vn_iff h hwt _).1 h2
  have app' : applyOnText gen vn w (visualNorm d w) :=
    (applyOnText_iff gen h hwt hvp).2 ((visualForm_iff h.script _ _).2 ⟨hwt, rfl⟩)
  have same : ∀ t, utf8 t = utf8 (visualNorm d w) →
      acceptText gen wf t = acceptText gen wf (visualNorm d w) := by
    intro t e; unfold acceptText; rw [e]
  simp only [visualForm_iff h.script]
  constructor
  · intro hr'
    refine ⟨_, ⟨hwt, rfl⟩, ?_⟩
    cases r with
    | ok t =>
      have e := (applyOnText_iff gen h hwt (hr t rfl)).1 hr'.1
      rw [visualForm_iff h.script] at e
      rw [e.2] at hr' ⊢
      exact Or.inl ⟨acc.1.1 hr'.2, rfl⟩
    | illFormedError =>
      obtain ⟨t, h1, h2⟩ := hr'
      rw [same t (app t h1)] at h2
      exact Or.inr ⟨acc.2.1.1 h2, rfl⟩
    | stringError =>
      obtain ⟨t, h1, h2⟩ := hr'
      rw [same t (app t h1)] at h2
      exact absurd h2 acc.2.2
    | fstInputError => exact absurd app' (hr' _)
  · rintro ⟨t, ⟨_, rfl⟩, ⟨hwf, rfl⟩ | ⟨hwf, rfl⟩⟩
    · exact ⟨app', acc.1.2 hwf⟩
    · exact ⟨_, app', acc.2.1.2 hwf⟩

/-- ASCII text `[224][170][149]`: in a Pynini string these brackets spell the three bytes of
GUJARATI LETTER KA. -/
def bracketKa : Str :=
  [0x5B, 0x32, 0x32, 0x34, 0x5D, 0x5B, 0x31, 0x37, 0x30, 0x5D, 0x5B, 0x31, 0x34, 0x39, 0x5D]

theorem bracket_compile : pyCompile gen (utf8 bracketKa) = some [224, 170, 149] := by
  simp [pyCompile, pyCompileAux, bracketKa, utf8, Utf8.encodeRaw, isSpecial, bracketLabels, numeral]

/-- C18 fails with brackets: the acceptor for Gujarati returns the ASCII text
`[224][170][149]` although it is not well formed, and raises a string compilation error instead of
`IllFormedError` for a lone bracket, because `AcceptText` does not escape its argument. -/
theorem C18_brackets (h : Compiled Data.gujr vn wf) :
    (Over textChar bracketKa ∧ applyOnWord gen vn wf bracketKa (.ok bracketKa) ∧
      ¬ wellFormed Data.gujr bracketKa) ∧
    (applyOnWord gen vn wf [0x5B] .stringError ∧
      ¬ applyOnWord gen vn wf [0x5B] .illFormedError) := by
  have ht : Over textChar bracketKa := (textB_iff _).1 (by decide)
  have ht' : Over textChar [0x5B] := (textB_iff _).1 (by decide)
  have e : visualNorm Data.gujr bracketKa = bracketKa := by decide +kernel
  have e' : visualNorm Data.gujr [0x5B] = [0x5B] := by decide +kernel
  have app := (applyOnText_iff gen h ht (fun c hc => (ht c hc).1)).2
    ((visualForm_iff h.script _ _).2 ⟨ht, e.symm⟩)
  have app' := (applyOnText_iff gen h ht' (fun c hc => (ht' c hc).1)).2
    ((visualForm_iff h.script _ _).2 ⟨ht', e'.symm⟩)
  have comp : pyCompile gen (utf8 [0x5B]) = none := by
    simp [pyCompile, pyCompileAux, utf8, Utf8.encodeRaw]
  have err : acceptText gen wf [0x5B] = .error := by unfold acceptText; rw [comp]
  refine ⟨⟨ht, ⟨app, ?_⟩, ?_⟩, ⟨_, app', err⟩, ?_⟩
  · unfold acceptText
    rw [bracket_compile, h.wellformed, byteWellFormed_eq]
    have : img (wellFormed Data.gujr) [224, 170, 149] :=
      ⟨[0xA95], by rw [← C16_recogniser]; decide +kernel, by decide⟩
    simp [this]
  · rw [← C16_recogniser]; decide +kernel
  · rintro ⟨t, h1, h2⟩
    obtain ⟨ls, h3, h4⟩ := h1
    rw [pyCompile_escape] at h3; cases h3
    have e2 := (vn_iff h ht' _).1 h4
    rw [e'] at e2
    have : acceptText gen wf t = .error := by
      unfold acceptText
      rw [e2, comp]
    rw [this] at h2; cases h2

/-! ### Running text -/

/-- The text with gap `g` first and then words, each followed by a gap. -/
def weave (g : Str) (ps : List (Str × Str)) : Str := g ++ ps.flatMap fun p => p.1 ++ p.2

/-- `g` and `ps` split `line` into maximal runs: gaps contain only ignored characters, words are
non-empty and contain none, and no two words are adjacent. -/
structure Segmented (ignore : Str) (line g : Str) (ps : List (Str × Str)) : Prop where
  line_eq : line = weave g ps
  gap : ∀ c ∈ g, c ∈ ignore
  words : ∀ p ∈ ps, p.1 ≠ [] ∧ (∀ c ∈ p.1, c ∉ ignore) ∧ ∀ c ∈ p.2, c ∈ ignore
  separate : ∀ p ∈ ps.dropLast, p.2 ≠ []

/-- Outcome expected for a segmented line: all words are replaced by their normal forms with the
gaps kept in place, or the first word that fails decides the error. -/
def TextOutcome (onWord : Str → NormResult) (g : Str) (ps : List (Str × Str)) (r : NormResult) :
    Prop :=
  (∃ ns : List Str, ps.map (fun p => onWord p.1) = ns.map .ok ∧
      r = .ok (weave g (ns.zip (ps.map (·.2))))) ∨
  (∃ pre p post, ps = pre ++ p :: post ∧ r = onWord p.1 ∧ (∀ t, r ≠ .ok t) ∧
      ∀ q ∈ pre, ∃ t, onWord q.1 = .ok t)

theorem prepend_outcome {onWord : Str → NormResult} {g g' : Str} {ps : List (Str × Str)}
    {r : NormResult} (h : TextOutcome onWord g ps r) :
    TextOutcome onWord (g' ++ g) ps (r.prepend g') := by
  rcases h with ⟨ns, h1, rfl⟩ | ⟨pre, p, post, h1, h2, h3, h4⟩
  · exact Or.inl ⟨ns, h1, by simp [NormResult.prepend, weave]⟩
  · have e : r.prepend g' = r := by
      cases r with
      | ok t => exact absurd rfl (h3 t)
      | _ => rfl
    exact Or.inr ⟨pre, p, post, h1, by rw [e, h2], by rw [e]; exact h3, h4⟩

theorem subRuns_spec (ignore : Str) (onWord : Str → NormResult) (s w : Str)
    (hw : ∀ c ∈ w, c ∉ ignore) :
    ∃ g ps, Segmented ignore (w ++ s) g ps ∧ (w ≠ [] → g = []) ∧
      TextOutcome onWord g ps (subRuns (fun c => ignore.contains c) onWord w s) := by
  induction s generalizing w with
  | nil =>
    cases w with
    | nil =>
      exact ⟨[], [], ⟨rfl, by simp, by simp, by simp⟩, fun _ => rfl, Or.inl ⟨[], rfl, rfl⟩⟩
    | cons a w =>
      refine ⟨[], [(a :: w, [])], ⟨by simp [weave], by simp, ?_, by simp⟩, fun _ => rfl, ?_⟩
      · intro p hp
        simp only [List.mem_singleton] at hp; subst hp
        exact ⟨by simp, hw, by simp⟩
      · simp only [subRuns]
        cases hf : onWord (a :: w) with
        | ok t => exact Or.inl ⟨[t], by simp [hf], by simp [weave]⟩
        | _ => exact Or.inr ⟨[], (a :: w, []), [], rfl, hf.symm, by simp, by simp⟩
  | cons c s ih =>
    by_cases hc : c ∈ ignore
    · have hc' : ignore.contains c = true := by simpa using hc
      obtain ⟨g, ps, seg, _, out⟩ := ih [] (by simp)
      rw [List.nil_append] at seg
      cases w with
      | nil =>
        refine ⟨c :: g, ps, ⟨?_, ?_, seg.words, seg.separate⟩, fun h => absurd rfl h, ?_⟩
        · rw [List.nil_append, seg.line_eq]; rfl
        · intro x hx
          rcases List.mem_cons.1 hx with rfl | hx
          · exact hc
          · exact seg.gap x hx
        · simp only [subRuns, hc', if_true]
          exact prepend_outcome (g' := [c]) out
      | cons a w =>
        refine ⟨[], (a :: w, c :: g) :: ps, ⟨?_, by simp, ?_, ?_⟩, fun _ => rfl, ?_⟩
        · rw [seg.line_eq]; simp [weave]
        · intro p hp
          rcases List.mem_cons.1 hp with rfl | hp
          · refine ⟨by simp, hw, ?_⟩
            intro x hx
            rcases List.mem_cons.1 hx with rfl | hx
            · exact hc
            · exact seg.gap x hx
          · exact seg.words p hp
        · intro p hp
          cases ps with
          | nil => simp at hp
          | cons q ps =>
            rw [List.dropLast_cons_of_ne_nil (by simp)] at hp
            rcases List.mem_cons.1 hp with rfl | hp
            · simp
            · exact seg.separate p hp
        · simp only [subRuns, hc', if_true]
          cases hf : onWord (a :: w) with
          | ok t =>
            simp only
            rcases out with ⟨ns, h1, h2⟩ | ⟨pre, p, post, h1, h2, h3, h4⟩
            · refine Or.inl ⟨t :: ns, by simp [hf, h1], ?_⟩
              rw [h2]
              simp [NormResult.prepend, weave]
            · have e : (subRuns (fun c => ignore.contains c) onWord [] s).prepend (t ++ [c]) =
                  subRuns (fun c => ignore.contains c) onWord [] s := by
                cases hh : subRuns (fun c => ignore.contains c) onWord [] s with
                | ok t => exact absurd hh (h3 t)
                | _ => rfl
              rw [e]
              refine Or.inr ⟨(a :: w, c :: g) :: pre, p, post, by rw [h1]; rfl, h2, h3, ?_⟩
              intro q hq
              rcases List.mem_cons.1 hq with rfl | hq
              · exact ⟨t, hf⟩
              · exact h4 q hq
          | _ => exact Or.inr ⟨[], (a :: w, c :: g), ps, rfl, hf.symm, by simp, by simp⟩
    · have hc' : ignore.contains c = false := by simpa using hc
      obtain ⟨g, ps, seg, hg, out⟩ := ih (w ++ [c]) (by
        intro x hx
        rcases List.mem_append.1 hx with hx | hx
        · exact hw x hx
        · rw [List.mem_singleton.1 hx]; exact hc)
      have hg := hg (by simp)
      refine ⟨g, ps, by simpa using seg, fun _ => hg, ?_⟩
      have e : subRuns (fun c => ignore.contains c) onWord w (c :: s) =
          subRuns (fun c => ignore.contains c) onWord (w ++ [c]) s := by
        cases w <;> simp [subRuns, hc]
      rw [e]
      exact out

/-- C18, running text: for a non-empty set of ignored characters every line splits into maximal
runs, ignored runs stay in place and every other run is replaced by the result of `ApplyOnWord`;
the error of the first failing word is raised.  The empty set is rejected by the constructor. -/
theorem C18_text (ignore : Str) (onWord : Str → NormResult) (line : Str) :
    (ignore = [] → acceptorApplyOnText ignore onWord line = none) ∧
    (ignore ≠ [] → ∃ g ps r, Segmented ignore line g ps ∧
      acceptorApplyOnText ignore onWord line = some r ∧ TextOutcome onWord g ps r) := by
  constructor
  · rintro rfl; rfl
  · intro hne
    obtain ⟨g, ps, seg, _, out⟩ := subRuns_spec ignore onWord line [] (by simp)
    refine ⟨g, ps, _, by simpa using seg, ?_, out⟩
    unfold acceptorApplyOnText
    rw [if_neg (by simpa using hne)]

/-- C18, running text without brackets: if `ApplyOnText` of a `NormalizingAcceptor` returns a text,
every word of it is the well-formed visual normal form of the word in its place. -/
theorem C18_text_partial (h : Compiled d vn wf) {onWord : Str → NormResult}
    (hon : ∀ w, applyOnWord gen vn wf w (onWord w)) (hpy : ∀ w t, onWord w = .ok t → PyText t)
    {ignore line out : Str} (hl : Over plainChar line)
    (hok : acceptorApplyOnText ignore onWord line = some (.ok out)) :
    ∃ g ps ns, Segmented ignore line g ps ∧ out = weave g (List.zip ns (ps.map (·.2))) ∧
      ns.length = ps.length ∧
      ∀ p ∈ (ps.map (·.1)).zip ns, VisualForm d p.1 p.2 ∧ wellFormed d p.2 := by
  by_cases hi : ignore = []
  · rw [(C18_text ignore onWord line).1 hi] at hok; cases hok
  · obtain ⟨g, ps, r, seg, hr, out'⟩ := (C18_text ignore onWord line).2 hi
    rw [hr] at hok; cases hok
    rcases out' with ⟨ns, h1, h2⟩ | ⟨_, _, _, _, _, h3, _⟩
    · simp only [NormResult.ok.injEq] at h2
      refine ⟨g, ps, ns, seg, h2, by simpa using (congrArg List.length h1).symm, ?_⟩
      have key : ∀ (ps : List (Str × Str)) (ns : List Str), (∀ p ∈ ps, Over plainChar p.1) →
          ps.map (fun p => onWord p.1) = ns.map .ok →
          ∀ p ∈ (ps.map (·.1)).zip ns, VisualForm d p.1 p.2 ∧ wellFormed d p.2 := by
        intro ps
        induction ps with
        | nil => intro ns _ _ p hp; simp at hp
        | cons q ps ih =>
          intro ns hpl h1 p hp
          cases ns with
          | nil => simp at hp
          | cons n ns =>
            simp only [List.map_cons, List.cons.injEq, List.zip_cons_cons, List.mem_cons] at h1 hp
            rcases hp with rfl | hp
            · have := (C18_word_partial gen h (hpl q (by simp)) _
                (fun t ht => hpy q.1 t ht)).1 (hon q.1)
              obtain ⟨t, hv, ⟨hw, e⟩ | ⟨_, e⟩⟩ := this
              · rw [h1.1] at e; cases e; exact ⟨hv, hw⟩
              · rw [h1.1] at e; cases e
            · exact ih ns (fun p hp => hpl p (List.mem_cons_of_mem _ hp)) h1.2 p hp
      refine key ps ns ?_ h1
      intro p hp c hc
      apply hl c
      rw [seg.line_eq, weave]
      refine List.mem_append_right _ (List.mem_flatMap.2 ⟨p, hp, List.mem_append_left _ hc⟩)
    · exact absurd rfl (h3 out)

/-- C18 in C++: `Normalizer::Rewrite` succeeds exactly when the visual normal form is well formed
(brackets included, since the bytes are not interpreted); in both cases `*output` holds the normal
form, so on failure the caller's string is overwritten with ill-formed text. -/
theorem C18_cpp (h : Compiled d vn wf) {s : Str} (hs : Over textChar s) (before : Str)
    (status : Bool) (out : Str) :
    normalizerRewrite vn wf (utf8 s) before status out ↔
      ∃ t, VisualForm d s t ∧ out = utf8 t ∧ (status = true ↔ wellFormed d t) := by
  have hvt := visualNorm_text h.script hs
  have hwf : wf (utf8 (visualNorm d s)) ↔ wellFormed d (visualNorm d s) := by
    rw [h.wellformed, byteWellFormed_iff h.script hvt]
  have hno : ¬ ∀ b, ¬ vn (utf8 s) b := fun k => k _ ((vn_iff h hs _).2 rfl)
  simp only [visualForm_iff h.script, normalizerRewrite, vn_iff h hs]
  cases status with
  | true =>
    simp only [if_true]
    constructor
    · rintro ⟨rfl, k⟩; exact ⟨_, ⟨hs, rfl⟩, rfl, by simpa using hwf.1 k⟩
    · rintro ⟨_, ⟨_, rfl⟩, rfl, k⟩; exact ⟨rfl, hwf.2 (by simpa using k)⟩
  | false =>
    simp only [Bool.false_eq_true, if_false, false_iff]
    constructor
    · rintro (⟨rfl, k⟩ | ⟨k, _⟩)
      · exact ⟨_, ⟨hs, rfl⟩, rfl, fun k' => k (hwf.2 k')⟩
      · exact absurd (fun b hb => k b ((vn_iff h hs b).1 hb)) hno
    · rintro ⟨_, ⟨_, rfl⟩, rfl, k⟩; exact Or.inl ⟨rfl, fun k' => k (hwf.1 k')⟩

/-! ### Instances -/

/-- Compiled grammars exist for every script. -/
theorem compiled_exists {d : BrahmicData} (hd : d ∈ Data.scripts) :
    ∃ vn, Compiled d vn (byteWellFormed d) := by
  obtain ⟨_, Rb, _, hRb, _⟩ := C30_visual hd (order := joiners ++ d.marks)
    (fun _ => List.mem_append)
  exact ⟨Rb, hd, ⟨_, fun _ => List.mem_append, hRb⟩, rfl⟩

/-- The Gujarati acceptor returns the normal form of `ka, virama, ZWNJ, ssa, ZWJ`. -/
example : ∃ vn wf, Compiled Data.gujr vn wf ∧
    applyOnWord gen vn wf [0xA95, 0xACD, 0x200C, 0xAB7, 0x200D]
      (.ok [0xA95, 0xACD, 0x200C, 0xAB7]) := by
  obtain ⟨vn, h⟩ := compiled_exists (d := Data.gujr) (by simp [Data.scripts])
  refine ⟨vn, _, h, ?_⟩
  rw [C18_word_partial gen h ((plainB_iff _).1 (by decide)) _
    (by rintro t ⟨⟩; intro c hc; exact (((plainB_iff [0xA95, 0xACD, 0x200C, 0xAB7]).1 (by decide)) c hc).1.1)]
  refine ⟨_, (visualForm_iff h.script _ _).2 ⟨(textB_iff _).1 (by decide), rfl⟩, Or.inl ⟨?_, ?_⟩⟩
  · rw [← C16_recogniser]; decide +kernel
  · have : visualNorm Data.gujr [0xA95, 0xACD, 0x200C, 0xAB7, 0x200D] =
      [0xA95, 0xACD, 0x200C, 0xAB7] := by decide +kernel
    rw [this]

/-- A line with two words and spaces; the second word fails. -/
example : acceptorApplyOnText [0x20] (fun w => if w = [1, 2] then .ok [3] else .illFormedError)
      [0x20, 1, 2, 0x20, 0x20] = some (.ok [0x20, 3, 0x20, 0x20]) ∧
    acceptorApplyOnText [0x20] (fun w => if w = [1, 2] then .ok [3] else .illFormedError)
      [1, 2, 0x20, 2] = some .illFormedError := by decide

end Nisaba.Props
