import Verif.Lemmas.ByteMode
import Verif.Props.Visual
/-!
# Byte-mode and UTF-8-mode grammars agree (C30)
-/
namespace Nisaba.Props
open Nisaba

/-- `Rb` does to the UTF-8 bytes of a text exactly what `R` does to the text: the results for the
bytes of `s` are the bytes of the results for `s`. -/
def AgreeOnText (R Rb : Rel) : Prop :=
  ∀ s b, Over textChar s → (Rb (utf8 s) b ↔ ∃ t, Over textChar t ∧ b = utf8 t ∧ R s t)

theorem encText_utf8 {s : Str} (hs : Over textChar s) : encText s = utf8 s := by
  induction s with
  | nil => rfl
  | cons c s ih =>
    have hc := (hs c (by simp)).1
    have : ¬ 0x110000 ≤ c := by have := (Utf8.isScalar_iff c).1 hc; omega
    rw [encText_cons, ih fun c hc => hs c (List.mem_cons_of_mem _ hc), encChar, if_neg this]
    rfl

theorem textChar_encodable (c : Nat) (h : textChar c) : encodable c := Or.inr h.1

theorem agree_of_lifts {R Rb : Rel} (h : Lifts textChar R Rb) : AgreeOnText R Rb := by
  intro s b hs
  rw [← encText_utf8 hs, h s b hs]
  constructor
  · rintro ⟨t, ht, rfl, hR⟩; exact ⟨t, ht, encText_utf8 ht, hR⟩
  · rintro ⟨t, ht, rfl, hR⟩; exact ⟨t, ht, (encText_utf8 ht).symm, hR⟩

/-- The strings of a rule table contain only scalar values other than NUL, and left-hand sides are
not empty. -/
def TextRules (rows : List Rule) : Prop :=
  ∀ p ∈ rows, Over textChar p.1 ∧ Over textChar p.2 ∧ p.1 ≠ []

theorem goodRel_textRules {rows : List Rule} (h : TextRules rows) : GoodRel (Rel.stringMap rows) := by
  intro l r hm
  obtain ⟨h1, h2, h3⟩ := h (l, r) hm
  exact ⟨fun c hc => textChar_encodable c (h1 c hc), fun c hc => textChar_encodable c (h2 c hc), h3⟩

/-- C30, one obligatory rewrite with contexts given by string tables. -/
theorem C30_rewrite {rows left right : List Rule} (h : TextRules rows) (hl : TextRules left)
    (hr : TextRules right) :
    AgreeOnText
      (Rewrite (Rel.stringMap rows) textChar ⟨endsIn (inputLang left), startsIn (inputLang right)⟩)
      (Rewrite (Rel.stringMap (encRules rows)) byteSigma
        ⟨endsIn (inputLang (encRules left)), startsIn (inputLang (encRules right))⟩) := by
  rw [encRel_stringMap]
  refine agree_of_lifts (rewrite_lifts (goodRel_textRules h) ⟨?_, ?_⟩ textChar_encodable
    (fun _ h => h) sigmaLifts_text)
  · exact fun s hs => endsIn_enc (fun p hp c hc => textChar_encodable c ((hl p hp).1 c hc)) hs
  · exact fun s hs => startsIn_enc (fun p hp c hc => textChar_encodable c ((hr p hp).1 c hc)) hs

theorem rules_lift {rules : List Rule} (h : TextRules rules) {V : Nat → Prop}
    (hV : ∀ c, V c → encodable c) (hσV : ∀ c, textChar c → V c) :
    (fstFromRules rules textChar = none ∧ byteFstFromRules rules = none) ∨
    ∃ R Rb, fstFromRules rules textChar = some R ∧ byteFstFromRules rules = some Rb ∧
      Lifts V R Rb ∧ ∀ s t, Over V s → R s t → Over V t := by
  unfold fstFromRules byteFstFromRules
  cases hp : partitionUnordered rules with
  | ok sets =>
    right
    refine ⟨_, _, rfl, rfl, ?_, ?_⟩
    · unfold rewriteAndCompose
      refine lifts_compose (lifts_sigmaStar hV sigmaLifts_text) _ _ (by simp) ?_
      intro p hp'
      rw [List.map_map, List.zip_map', List.mem_map] at hp'
      obtain ⟨st, hst, rfl⟩ := hp'
      refine ⟨?_, fun s t _ hst c hc => hσV c (hst.2.1 c hc)⟩
      simp only [Function.comp]
      rw [encRel_stringMap]
      refine rewrite_lifts (goodRel_textRules ?_) ctxLifts_free hV hσV sigmaLifts_text
      exact fun p hp' => h p (mem_sets_rules hp hst hp')
    · intro s t hs hR
      cases sets with
      | nil => obtain ⟨rfl, _⟩ := hR; exact hs
      | cons a sets =>
        have : ∀ (a : List Rule) (sets : List (List Rule)) s t,
            composeRels (Rel.sigmaStar textChar)
              ((a :: sets).map fun s => Rewrite (Rel.stringMap s) textChar) s t → Over textChar t := by
          intro a sets
          induction sets generalizing a with
          | nil => intro s t h; exact h.2.1
          | cons b sets ih => rintro s t ⟨y, _, h⟩; exact ih b _ _ h
        exact fun c hc => hσV c (this a sets s t hR c hc)
  | valueError => exact Or.inl ⟨rfl, rfl⟩
  | fuel => exact Or.inl ⟨rfl, rfl⟩

/-- C30, rule files: a rule file compiles in byte mode exactly when it compiles in UTF-8 mode, and
the two grammars agree on every text. -/
theorem C30_rules {rules : List Rule} (h : TextRules rules) :
    (fstFromRules rules textChar = none ∧ byteFstFromRules rules = none) ∨
    ∃ R Rb, fstFromRules rules textChar = some R ∧ byteFstFromRules rules = some Rb ∧
      AgreeOnText R Rb := by
  rcases rules_lift h textChar_encodable (fun _ h => h) with h | ⟨R, Rb, h1, h2, h3, _⟩
  · exact Or.inl h
  · exact Or.inr ⟨R, Rb, h1, h2, agree_of_lifts h3⟩

/-- Check of all table entries used by NFC and visual normalization. -/
def textB (s : Str) : Bool := s.all fun c => Utf8.isScalar c && !(Nat.beq c 0)

theorem textB_iff (s : Str) : textB s = true ↔ Over textChar s := by
  have h : ∀ c, (!(Nat.beq c 0)) = true ↔ c ≠ 0 := by
    intro c
    cases c <;> simp [Nat.beq]
  simp only [textB, List.all_eq_true, Bool.and_eq_true, h, Over, textChar]

def tablesTextB (d : BrahmicData) : Bool :=
  (d.nfc ++ d.visualRewrite).all (fun p => textB p.1 && textB p.2 && !p.1.isEmpty) &&
  d.consonant.all (fun p => textB p.1) &&
  d.preserve.all (fun p => textB p.1 && p.2.all (fun c => Nat.ble 0x110000 c) && !p.1.isEmpty
    && !p.2.isEmpty) &&
  d.marks.all (fun c => textB [c])

theorem tablesTextB_all : Data.scripts.all tablesTextB = true := by decide +kernel

/-- C30 for NFC of every script. -/
theorem C30_nfc {d : BrahmicData} (hd : d ∈ Data.scripts) :
    ∃ R Rb, nfcFst d textChar = some R ∧ byteFstFromRules d.nfc = some Rb ∧ AgreeOnText R Rb := by
  have hrules : TextRules d.nfc := by
    have := List.all_eq_true.1 tablesTextB_all d hd
    simp only [tablesTextB, Bool.and_eq_true, List.all_eq_true, List.mem_append] at this
    intro p hp
    have := this.1.1.1 p (Or.inl hp)
    exact ⟨(textB_iff _).1 this.1.1, (textB_iff _).1 this.1.2, by simpa using this.2⟩
  rcases C30_rules hrules with ⟨h, _⟩ | h
  · obtain ⟨R, hR, _⟩ := nfc_graph hd (σ := textChar) (fun p hp => (hrules p hp).2.1)
    rw [nfcFst, h] at hR; cases hR
  · exact h

/-- C30 for the NFC grammar of all scripts together. -/
theorem C30_nfc_brahmic :
    ∃ R Rb, brahmicNfcFst textChar = some R ∧ byteFstFromRules brahmicNfcRules = some Rb ∧
      AgreeOnText R Rb := by
  have hrules : TextRules brahmicNfcRules := by
    intro p hp
    obtain ⟨d, hd, hp⟩ := List.mem_flatMap.1 hp
    have := List.all_eq_true.1 tablesTextB_all d hd
    simp only [tablesTextB, Bool.and_eq_true, List.all_eq_true, List.mem_append] at this
    have := this.1.1.1 p (Or.inl hp)
    exact ⟨(textB_iff _).1 this.1.1, (textB_iff _).1 this.1.2, by simpa using this.2⟩
  rcases C30_rules hrules with ⟨h, _⟩ | h
  · obtain ⟨R, hR, _⟩ := C06_nfc_total.2 textChar (fun p hp => (hrules p hp).2.1)
    rw [brahmicNfcFst, h] at hR; cases hR
  · exact h

theorem goodSigma_text {d : BrahmicData} (hd : d ∈ Data.scripts) : GoodSigma d textChar := by
  have := List.all_eq_true.1 tablesTextB_all d hd
  simp only [tablesTextB, Bool.and_eq_true, List.all_eq_true, List.mem_append] at this
  obtain ⟨⟨⟨h1, _⟩, h3⟩, _⟩ := this
  refine ⟨?_, ?_, ?_, ?_⟩
  · intro c hc hg
    have := (Utf8.isScalar_iff c).1 hc.1
    unfold generated at hg; omega
  · exact fun p hp => (textB_iff _).1 (h1 p (Or.inl hp)).1.2
  · exact fun p hp => (textB_iff _).1 (h1 p (Or.inr hp)).1.2
  · exact fun p hp => (textB_iff _).1 (h3 p hp).1.1.1

/-- C30 for visual normalization of every script: the byte-mode grammar, with its joiner
preservation through generated symbols, does to the bytes of a text exactly what the
character-mode grammar does to the text. -/
theorem C30_visual {d : BrahmicData} (hd : d ∈ Data.scripts) {order : List Nat}
    (ho : MarkOrder d order) :
    ∃ R Rb, visualNormFst d textChar order = some R ∧ byteVisualNormFst d order = some Rb ∧
      AgreeOnText R Rb := by
  have tab := List.all_eq_true.1 tablesTextB_all d hd
  simp only [tablesTextB, Bool.and_eq_true, List.all_eq_true, List.mem_append] at tab
  obtain ⟨⟨⟨h1, h2⟩, h3⟩, h4⟩ := tab
  have rule : ∀ p, p ∈ d.nfc ∨ p ∈ d.visualRewrite → Over textChar p.1 ∧ Over textChar p.2 ∧ p.1 ≠ [] :=
    fun p hp => ⟨(textB_iff _).1 (h1 p hp).1.1, (textB_iff _).1 (h1 p hp).1.2,
      by simpa using (h1 p hp).2⟩
  have hVe : ∀ c, intermediateSigma textChar c → encodable c := fun c hc => hc.imp id (·.1)
  have hVt : ∀ c, textChar c → intermediateSigma textChar c := fun c hc => Or.inr hc
  obtain ⟨R₀, hR₀, g, m⟩ := visualNorm_graph hd (goodSigma_text hd) ho
  refine ⟨R₀, ?_⟩
  unfold visualNormFst coreVisualNormFsts at hR₀
  unfold byteVisualNormFst byteCoreVisualNormFsts
  rcases rules_lift (fun p hp => rule p (Or.inl hp)) hVe hVt with h | ⟨N, Nb, hN, hNb, lN, oN⟩
  · rw [nfcFst, h.1] at hR₀; cases hR₀
  rcases rules_lift (fun p hp => rule p (Or.inr hp)) hVe hVt with h | ⟨V, Vb, hW, hVb, lV, oV⟩
  · rw [h.1] at hR₀
    cases hnf : nfcFst d textChar <;> rw [hnf] at hR₀ <;> cases hR₀
  rw [nfcFst, hN, hW] at hR₀
  rw [hNb, hVb]
  simp only [Option.some.injEq] at hR₀
  refine ⟨_, ?_, rfl, ?_⟩
  · unfold visualNormFst coreVisualNormFsts
    rw [nfcFst, hN, hW]; simp only [hR₀]
  rw [← hR₀]
  -- consonants
  have cons : ∀ p ∈ d.consonant, Over encodable p.1 :=
    fun p hp c hc => textChar_encodable c ((textB_iff _).1 (h2 p hp) c hc)
  have pres : ∀ p ∈ d.preserve, Over encodable p.1 ∧ Over encodable p.2 ∧ p.1 ≠ [] ∧ p.2 ≠ [] := by
    intro p hp
    obtain ⟨⟨⟨a, b⟩, c⟩, e⟩ := h3 p hp
    exact ⟨fun c hc => textChar_encodable c ((textB_iff _).1 a c hc),
      fun c hc => Or.inl (Nat.le_of_ble_eq_true (b c hc)), by simpa using c, by simpa using e⟩
  -- de-duplication
  have lD : Lifts (intermediateSigma textChar) (dedupChars textChar order) (byteDedupChars order) := by
    unfold dedupChars byteDedupChars
    refine lifts_compose (V := intermediateSigma textChar)
      (D := fun _ _ => False) (Db := fun _ _ => False) (by intro s b _; simp) _ _ (by simp) ?_
    intro p hp
    rw [List.zip_map', List.mem_map] at hp
    obtain ⟨c, hc, rfl⟩ := hp
    refine ⟨?_, fun s t _ hst c hc => hVt c (hst.2.1 c hc)⟩
    have hce : encodable c := by
      rcases (ho c).1 hc with h | h
      · right
        simp only [joiners, List.mem_cons, List.not_mem_nil, or_false] at h
        rcases h with rfl | rfl | rfl <;> rfl
      · exact textChar_encodable c ((textB_iff _).1 (h4 c h) c (by simp))
    have e : Rel.stringMap [(encChar c, ([] : Str))] = encRel (Rel.stringMap [([c], [])]) := by
      rw [← encRel_stringMap]; simp [encRules, encText]
    unfold dedupChar byteDedupChar
    rw [e]
    have e1 : (fun x => x = [c]) = inputLang [([c], ([] : Str))] := by
      funext x; simp [inputLang]
    have e2 : (fun x => x = encChar c) = inputLang (encRules [([c], ([] : Str))]) := by
      funext x; simp [inputLang, encRules, encText]
    rw [e1, e2]
    have hcov : Over encodable [c] := by
      intro x hx; rw [List.mem_singleton] at hx; exact hx ▸ hce
    refine rewrite_lifts ?_ ⟨fun s hs => endsIn_enc (by simpa using hcov) hs, fun _ _ => Iff.rfl⟩
      hVe hVt sigmaLifts_text
    intro l r h
    simp only [Rel.stringMap, List.mem_singleton, Prod.mk.injEq] at h
    obtain ⟨rfl, rfl⟩ := h
    exact ⟨hcov, by intro c hc; simp at hc, by simp⟩
  have oD : ∀ s t, Over (intermediateSigma textChar) s → dedupChars textChar order s t →
      Over (intermediateSigma textChar) t := by
    intro s t hs h
    have hne : order ≠ [] := by
      intro h
      have := (ho ZWNJ).2 (Or.inl (by simp [joiners]))
      rw [h] at this; simp at this
    obtain ⟨ho', rfl⟩ := (dedupChars_graph textChar hne s t).1 h
    exact fun c hc => hVt c (over_collapse order s ho' c hc)
  have hS := sigmaLifts_intermediate
  have lift : Lifts (intermediateSigma textChar)
      (composeRels (fun _ _ => False) [N, dedupChars textChar order, V,
        Rewrite (Rel.stringMap d.preserve) (intermediateSigma textChar)
          ⟨endsIn (consonantLang d), startsIn (consonantLang d)⟩,
        Rewrite (Rel.stringMap (joiners.map fun c => ([c], []))) (intermediateSigma textChar),
        Rewrite (Rel.inv (Rel.stringMap d.preserve)) (intermediateSigma textChar),
        Rel.sigmaStar textChar])
      (composeRels (fun _ _ => False) [Nb, byteDedupChars order, Vb,
        Rewrite (Rel.stringMap (encRules d.preserve)) (intermediateSigma byteSigma)
          ⟨endsIn (byteConsonantLang d), startsIn (byteConsonantLang d)⟩,
        Rewrite (Rel.stringMap (encRules (joiners.map fun c => ([c], []))))
          (intermediateSigma byteSigma),
        Rewrite (Rel.inv (Rel.stringMap (encRules d.preserve))) (intermediateSigma byteSigma),
        Rel.sigmaStar byteSigma]) := by
    refine lifts_compose (V := intermediateSigma textChar)
      (D := fun _ _ => False) (Db := fun _ _ => False) (by intro s b _; simp) _ _ rfl ?_
    intro p hp
    simp only [List.zip_cons_cons, List.zip_nil_right, List.mem_cons, List.not_mem_nil,
      or_false] at hp
    rcases hp with rfl | rfl | rfl | rfl | rfl | rfl | rfl
    · exact ⟨lN, oN⟩
    · exact ⟨lD, oD⟩
    · exact ⟨lV, oV⟩
    · refine ⟨?_, fun s t _ h => h.2.1⟩
      rw [encRel_stringMap]
      refine rewrite_lifts ?_ ⟨fun s hs => endsIn_enc cons hs, fun s hs => startsIn_enc cons hs⟩
        hVe (fun _ h => h) hS
      exact fun l r h => ⟨(pres _ h).1, (pres _ h).2.1, (pres _ h).2.2.1⟩
    · refine ⟨?_, fun s t _ h => h.2.1⟩
      rw [encRel_stringMap]
      refine rewrite_lifts ?_ ctxLifts_free hVe (fun _ h => h) hS
      intro l r h
      simp only [Rel.stringMap, joiners, List.map_cons, List.map_nil, List.mem_cons,
        Prod.mk.injEq, List.not_mem_nil, or_false] at h
      have : ∀ c, c ∈ [ZWNJ, ZWJ, ZWS] → Over encodable [c] := by
        intro c hc x hx
        rw [List.mem_singleton] at hx; subst hx
        right
        simp only [List.mem_cons, List.not_mem_nil, or_false] at hc
        rcases hc with rfl | rfl | rfl <;> rfl
      rcases h with ⟨rfl, rfl⟩ | ⟨rfl, rfl⟩ | ⟨rfl, rfl⟩ <;>
        exact ⟨this _ (by simp), by intro c hc; simp at hc, by simp⟩
    · refine ⟨?_, fun s t _ h => h.2.1⟩
      rw [encRel_stringMap, encRel_inv]
      refine rewrite_lifts ?_ ctxLifts_free hVe (fun _ h => h) hS
      exact fun l r h => ⟨(pres _ h).2.1, (pres _ h).1, (pres _ h).2.2.2⟩
    · exact ⟨lifts_sigmaStar hVe sigmaLifts_text, by rintro s t hs ⟨rfl, _⟩; exact hs⟩
  intro s b hs
  rw [← encText_utf8 hs]
  refine (lift s b (fun c hc => hVt c (hs c hc))).trans ?_
  constructor
  · rintro ⟨t, _, rfl, h⟩
    have ht : Over textChar t := by
      obtain ⟨_, _, _, _, _, _, _, _, _, _, _, _, rfl, h⟩ := h
      exact h
    exact ⟨t, ht, encText_utf8 ht, h⟩
  · rintro ⟨t, ht, rfl, h⟩
    exact ⟨t, fun c hc => hVt c (ht c hc), (encText_utf8 ht).symm, h⟩

/-- The hypotheses hold for the Devanagari tables and for a text with a joiner. -/
example : MarkOrder Data.deva (joiners ++ Data.deva.marks) ∧ TextRules Data.deva.nfc ∧
    Over textChar [0x915, 0x94D, 0x200C, 0x937] := by
  refine ⟨fun _ => List.mem_append, ?_, by rw [← textB_iff]; rfl⟩
  intro p hp
  have h : Data.deva.nfc.all (fun p => textB p.1 && textB p.2 && !p.1.isEmpty) = true := by
    decide +kernel
  have := List.all_eq_true.1 h p hp
  simp only [Bool.and_eq_true] at this
  exact ⟨(textB_iff _).1 this.1.1, (textB_iff _).1 this.1.2, by simpa using this.2⟩

/-- The byte-mode rewriter of one rule, on the bytes of KA + NUKTA. -/
example : Rewrite (Rel.stringMap (encRules [([0x915, 0x93C], [0x958])])) byteSigma
    Ctx.free (utf8 [0x915, 0x93C]) (utf8 [0x958]) := by
  refine ⟨by unfold Over byteSigma; decide, by unfold Over byteSigma; decide, ?_⟩
  refine CDRewrite.apply (l := utf8 [0x915, 0x93C]) (r := utf8 [0x958]) (rest' := [])
    ⟨by simp [Rel.stringMap, encRules, encText, utf8, encChar], by simp, trivial, trivial⟩ ?_
  exact CDRewrite.done _

end Nisaba.Props
