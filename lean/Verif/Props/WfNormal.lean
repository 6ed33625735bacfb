import Verif.Lemmas.WfTables
import Verif.Props.Acceptor
/-!
# Normalization and well-formedness (C74)
-/
namespace Nisaba.Props
open Nisaba

/-- Malayalam text without CHILLU N followed by a two-part vowel sign O or OO; text of every other
script. -/
def NoChilluSign (d : BrahmicData) (s : Str) : Prop :=
  d.name = "Mlym" → ¬ [0xD7B, 0xD46, 0xD3E] <:+: s ∧ ¬ [0xD7B, 0xD47, 0xD3E] <:+: s

private theorem mlym_of {d : BrahmicData} (hd : d ∈ Data.scripts) (h : d.name = "Mlym") :
    d = Data.mlym := by
  simp only [Data.scripts, List.mem_cons, List.not_mem_nil, or_false] at hd
  rcases hd with rfl | rfl | rfl | rfl | rfl | rfl | rfl | rfl | rfl | rfl | rfl | rfl | rfl | rfl |
    rfl | rfl | rfl | rfl | rfl | rfl
  all_goals first
    | rfl
    | (exfalso; revert h; decide)

private theorem noChillu {s : Str} (h : NoChilluSign Data.mlym s) :
    ∀ f ∈ chilluSigns, ¬ f <:+: s := by
  intro f hf
  obtain ⟨h1, h2⟩ := h rfl
  simp only [chilluSigns, List.mem_cons, List.not_mem_nil, or_false] at hf
  rcases hf with rfl | rfl
  · exact h1
  · exact h2

private theorem nfc_wf {d : BrahmicData} (hd : d ∈ Data.scripts) {s : Str} (hs : wellFormed d s)
    (hm : NoChilluSign d s) : wellFormed d (applyRules d.nfc s) ∧
      Acc (looseGram d) 0 (applyRules d.nfc s) := by
  by_cases h : d.name = "Mlym"
  · have := mlym_of hd h
    subst this
    exact ⟨mlym_nfc_wellFormed hs (noChillu hm), mlym_nfc_loose hs (noChillu hm)⟩
  · exact ⟨nfc_wellFormed hd h hs, nfc_loose hd h hs⟩

private theorem visual_wf {d : BrahmicData} (hd : d ∈ Data.scripts) {s : Str}
    (hs : wellFormed d s) (hm : NoChilluSign d s) : wellFormed d (visualNorm d s) := by
  unfold visualNorm
  refine core_wellFormed_of hd (nfc_wf hd hs hm).2 ?_
  obtain ⟨_, _, _, m⟩ := visualNorm_graph hd (goodSigma_plain hd)
    (order := joiners ++ d.marks) (fun _ => List.mem_append)
  have := m s (wellFormed_plain hd hs)
  exact fun c hc => (goodSigma_plain hd).noGenerated c (this c hc)

/-- C74, NFC: the NFC form of a well-formed text is well formed.
Missing for the full claim: Malayalam text with CHILLU N followed by a two-part vowel sign, see
`C74_malayalam`. -/
theorem C74_nfc_partial {d : BrahmicData} (hd : d ∈ Data.scripts) {σ : Nat → Prop}
    (hσ : Writes σ d.nfc) {N : Rel} (hN : nfcFst d σ = some N) {s t : Str} (h : N s t)
    (hs : wellFormed d s) (hm : NoChilluSign d s) : wellFormed d t := by
  obtain ⟨_, hN', g, _⟩ := nfc_graph hd hσ
  rw [hN] at hN'; cases hN'
  rw [((g _ _).1 h).2]
  exact (nfc_wf hd hs hm).1

/-- C74, visual normalization: the visual normal form of a well-formed text is well formed.
Missing for the full claim: as for `C74_nfc_partial`. -/
theorem C74_visual_partial {d : BrahmicData} (hd : d ∈ Data.scripts) {σ : Nat → Prop}
    (hσ : GoodSigma d σ) {order : List Nat} (ho : MarkOrder d order) {V : Rel}
    (hV : visualNormFst d σ order = some V) {s t : Str} (h : V s t)
    (hs : wellFormed d s) (hm : NoChilluSign d s) : wellFormed d t := by
  obtain ⟨_, hV', g, _⟩ := visualNorm_graph hd hσ ho
  rw [hV] at hV'; cases hV'
  rw [((g _ _).1 h).2]
  exact visual_wf hd hs hm

/-- C74, visual normalization of Assamese and Bengali. -/
theorem C74_visual_lang {σ : Nat → Prop} (hσ : GoodSigma Data.beng σ)
    {order : List Nat} (ho : MarkOrder Data.beng order) {before after : List Rule}
    (hb : (before, after) ∈ [(Data.bengAsBeforeConsonant, Data.bengAsAfterConsonant),
      (Data.bengBnBeforeConsonant, Data.bengBnAfterConsonant)])
    (hbσ : Writes σ before) (haσ : Writes σ after) {R : Rel}
    (hR : visualNormLangFst Data.beng before after σ order = some R) {s t : Str} (h : R s t)
    (hs : wellFormed Data.beng s) : wellFormed Data.beng t := by
  have hd : Data.beng ∈ Data.scripts := by simp [Data.scripts]
  have he := entriesNonempty_of hd
  obtain ⟨V, hV, g, m⟩ := visualNorm_graph hd hσ ho
  have hbe : LhsNonempty before ∧ PrefixDet before ∧ LhsNonempty after ∧ PrefixDet after ∧
      (∀ p ∈ before, p ∈ Data.bengAsBeforeConsonant ++ Data.bengBnBeforeConsonant) ∧
      (∀ p ∈ after, p ∈ Data.bengAsAfterConsonant ++ Data.bengBnAfterConsonant) := by
    simp only [List.mem_cons, Prod.mk.injEq, List.not_mem_nil, or_false] at hb
    rcases hb with ⟨rfl, rfl⟩ | ⟨rfl, rfl⟩ <;>
      exact ⟨by intro p hp; simp [Data.bengAsBeforeConsonant, Data.bengBnBeforeConsonant] at hp; simp [hp],
        prefixDet_single _,
        by intro p hp; simp [Data.bengAsAfterConsonant, Data.bengBnAfterConsonant] at hp; simp [hp],
        prefixDet_single _, fun p hp => by simp [hp], fun p hp => by simp [hp]⟩
  obtain ⟨hb1, hb2, ha1, ha2, hb3, ha3⟩ := hbe
  simp only [visualNormLangFst, hV, Option.some.injEq] at hR
  subst hR
  simp only [composeRels] at h
  obtain ⟨u, h1, v, h2, h3⟩ := h
  obtain ⟨hsσ, rfl⟩ := (g _ _).1 h1
  have hu : wellFormed Data.beng (visualNorm Data.beng s) := visual_wf hd hs (fun h => absurd h (by decide))
  rw [consonantLang, ← rightCtx_toCtx] at h2
  rw [consonantLang, ← leftCtx_toCtx] at h3
  obtain ⟨_, rfl⟩ := (rewriteC_iff hb1 (hb2.detAt _) hbσ).1 h2
  obtain ⟨_, rfl⟩ := (rewriteC_iff ha1 (ha2.detAt _) haσ).1 h3
  rw [wellFormed_iff_acc he] at hu ⊢
  have key := keepsWf_acc he lhsNonempty_nil lhsNonempty_nil keepsBeng
  refine scanC_keeps (W := Acc (wfGram Data.beng [] []) 0) ha1 ?_ [] 0 _ ?_
  · intro p hp x y _ _ hxy
    refine key p ?_ x y hxy
    have := ha3 p hp
    simp only [List.mem_append] at this ⊢
    rcases this with h | h <;> simp [h]
  · refine scanC_keeps (W := Acc (wfGram Data.beng [] []) 0) hb1 ?_ [] 0 _ hu
    intro p hp x y _ hr hxy
    obtain ⟨c, hc, hcy⟩ := List.any_eq_true.1 hr
    obtain ⟨y', rfl⟩ := isPre_iff.1 hcy
    have := key (p.1 ++ c.1, p.2 ++ c.1) (by
      have := hb3 p hp
      simp only [List.mem_append] at this ⊢
      rcases this with h | h
      · exact Or.inl (Or.inl (Or.inl (Or.inl
          (List.mem_flatMap.2 ⟨p, h, List.mem_map.2 ⟨c, hc, rfl⟩⟩))))
      · exact Or.inl (Or.inl (Or.inl (Or.inr
          (List.mem_flatMap.2 ⟨p, h, List.mem_map.2 ⟨c, hc, rfl⟩⟩))))) x y'
    simp only [List.append_assoc] at this
    exact this hxy

/-- C74 for the API: `NormalizingAcceptor.ApplyOnWord` never rejects a well-formed word. -/
theorem C74_acceptor_partial (gen : Str → Str) {d : BrahmicData} {vn : Rel} {wf : Lang}
    (h : Compiled d vn wf) {w : Str} (hw : wellFormed d w) (hm : NoChilluSign d w) :
    (∃ t, PyText t ∧ applyOnWord gen vn wf w (.ok t)) ∧
    ¬ applyOnWord gen vn wf w .illFormedError ∧ ¬ applyOnWord gen vn wf w .stringError ∧
    ¬ applyOnWord gen vn wf w .fstInputError := by
  have hp := wellFormed_plain h.script hw
  have hv := visual_wf h.script hw hm
  have hvp := wellFormed_plain h.script hv
  have key := fun r hr => C18_word_partial gen h hp r hr
  have vf : VisualForm d w (visualNorm d w) :=
    (visualForm_iff h.script _ _).2 ⟨fun c hc => (hp c hc).1, rfl⟩
  refine ⟨⟨visualNorm d w, fun c hc => (hvp c hc).1.1, ?_⟩, ?_, ?_, ?_⟩
  · refine (key _ ?_).2 ⟨_, vf, Or.inl ⟨hv, rfl⟩⟩
    rintro t ⟨⟩ c hc
    exact (hvp c hc).1.1
  all_goals
    intro hr
    obtain ⟨t, h1, h2⟩ := (key _ (by intro t ht; cases ht)).1 hr
    rcases h2 with ⟨_, h2⟩ | ⟨h2, h3⟩
    · cases h2
    · first
        | (rw [((visualForm_iff h.script _ _).1 h1).2] at h2; exact h2 hv)

/-- C74 fails for Malayalam: CHILLU N, VOWEL SIGN EE, VOWEL SIGN AA, ANUSVARA is well formed (two
accepted exceptions in a row), but its NFC form and its visual normal form, which join the two
vowel signs, are not. -/
theorem C74_malayalam :
    wellFormed Data.mlym [0xD7B, 0xD47, 0xD3E, 0xD02] ∧
    (∀ σ N t, Writes σ Data.mlym.nfc → nfcFst Data.mlym σ = some N →
      N [0xD7B, 0xD47, 0xD3E, 0xD02] t → ¬ wellFormed Data.mlym t) ∧
    (∀ σ order V t, GoodSigma Data.mlym σ → MarkOrder Data.mlym order →
      visualNormFst Data.mlym σ order = some V →
      V [0xD7B, 0xD47, 0xD3E, 0xD02] t → ¬ wellFormed Data.mlym t) := by
  have hd : Data.mlym ∈ Data.scripts := by simp [Data.scripts]
  refine ⟨?_, ?_, ?_⟩
  · rw [← C16_recogniser]; decide +kernel
  · intro σ N t hσ hN h
    obtain ⟨_, hN', g, _⟩ := nfc_graph hd hσ
    rw [hN] at hN'; cases hN'
    rw [((g _ _).1 h).2, ← C16_recogniser]
    decide +kernel
  · intro σ order V t hσ ho hV h
    obtain ⟨_, hV', g, _⟩ := visualNorm_graph hd hσ ho
    rw [hV] at hV'; cases hV'
    rw [((g _ _).1 h).2, ← C16_recogniser]
    decide +kernel

/-- The Malayalam normalizing acceptor rejects that well-formed word. -/
theorem C74_acceptor_malayalam (gen : Str → Str) {vn : Rel} {wf : Lang}
    (h : Compiled Data.mlym vn wf) :
    applyOnWord gen vn wf [0xD7B, 0xD47, 0xD3E, 0xD02] .illFormedError ∧
    ∀ t, PyText t → ¬ applyOnWord gen vn wf [0xD7B, 0xD47, 0xD3E, 0xD02] (.ok t) := by
  have hw := C74_malayalam.1
  have hp := wellFormed_plain h.script hw
  have e : visualNorm Data.mlym [0xD7B, 0xD47, 0xD3E, 0xD02] = [0xD7B, 0xD4B, 0xD02] := by
    decide +kernel
  have hno : ¬ wellFormed Data.mlym [0xD7B, 0xD4B, 0xD02] := by
    rw [← C16_recogniser]; decide +kernel
  constructor
  · refine (C18_word_partial gen h hp _ (by intro t ht; cases ht)).2
      ⟨_, (visualForm_iff h.script _ _).2 ⟨fun c hc => (hp c hc).1, e.symm⟩, Or.inr ⟨hno, rfl⟩⟩
  · intro t ht hr
    obtain ⟨u, h1, h2⟩ := (C18_word_partial gen h hp _ (by rintro _ ⟨⟩; exact ht)).1 hr
    rw [((visualForm_iff h.script _ _).1 h1).2, e] at h2
    rcases h2 with ⟨h2, _⟩ | ⟨_, h2⟩
    · exact hno h2
    · cases h2

/-- Gujarati KA with a doubled nukta is well formed, visual normalization changes it. -/
example : wellFormed Data.gujr [0xA95, 0xABC, 0xABC] ∧ NoChilluSign Data.gujr [0xA95, 0xABC, 0xABC] ∧
    ∃ V, visualNormFst Data.gujr (sigmaUtf8 Data.gujr) (joiners ++ Data.gujr.marks) = some V ∧
      V [0xA95, 0xABC, 0xABC] [0xA95, 0xABC] := by
  refine ⟨?_, fun h => absurd h (by decide), ?_⟩
  · rw [← C16_recogniser]; decide +kernel
  · obtain ⟨V, hV, g, _⟩ := visualNorm_graph (d := Data.gujr) (by simp [Data.scripts])
      (goodSigma_utf8 (by simp [Data.scripts])) (order := joiners ++ Data.gujr.marks)
      (fun _ => List.mem_append)
    refine ⟨V, hV, (g _ _).2 ⟨?_, by decide +kernel⟩⟩
    intro c hc
    refine Or.inl (memNat_iff.1 ?_)
    revert c
    decide +kernel

/-- Gurmukhi SHA is well formed, NFC decomposes it. -/
example : wellFormed Data.guru [0xA36] ∧ applyRules Data.guru.nfc [0xA36] = [0xA38, 0xA3C] := by
  rw [← C16_recogniser]; decide +kernel

end Nisaba.Props
