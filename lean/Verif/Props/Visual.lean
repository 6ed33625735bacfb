import Verif.Lemmas.VisualFst
import Verif.Props.Nfc
/-!
# Brahmic visual normalization (C10 – C14)
-/
namespace Nisaba.Props

/-- The UTF-8-mode alphabets satisfy the hypothesis of the theorems below. -/
theorem goodSigma_utf8 {d : BrahmicData} (hd : d ∈ Data.scripts) : GoodSigma d (sigmaUtf8 d) where
  noGenerated := by
    have h : (Data.scripts.all fun d => (scriptChars d).all fun c => Nat.blt c 0x110000) = true := by
      decide +kernel
    intro c hc
    have h2 := List.all_eq_true.1 h d hd
    unfold generated
    rcases hc with hc | hc
    · have := Nat.le_of_ble_eq_true (List.all_eq_true.1 h2 c hc); omega
    · simp [joiners, ZWNJ, ZWJ, ZWS] at hc; omega
  nfc := writes_sigmaUtf8 d
  visual := by
    intro p hp c hc
    refine Or.inl ?_
    have : c ∈ bothChars d.visualRewrite := by
      simp only [bothChars, List.mem_flatMap, List.mem_append]; exact ⟨p, hp, Or.inr hc⟩
    simp [scriptChars, this]
  preserve := by
    have h : (Data.scripts.all fun d => d.preserve.all fun p => p.1.all fun c =>
        isJoiner c || memNat (inputChars d.virama) c) = true := by decide +kernel
    intro p hp c hc
    have := List.all_eq_true.1 (List.all_eq_true.1 (List.all_eq_true.1 h d hd) p hp) c hc
    rw [Bool.or_eq_true] at this
    rcases this with h | h
    · exact Or.inr (memNat_iff.1 h)
    · exact Or.inl (by simp [scriptChars, memNat_iff.1 h])

/-- `order` enumerates the mark characters of the script (any order, the code uses a set). -/
def MarkOrder (d : BrahmicData) (order : List Nat) : Prop := ∀ c, c ∈ order ↔ markChar d c

/-- C10. Visual normalization of each script relates every string over the alphabet to exactly one
string over the alphabet. -/
theorem C10_visual_function {d : BrahmicData} (hd : d ∈ Data.scripts) {σ : Nat → Prop}
    (hσ : GoodSigma d σ) {order : List Nat} (ho : MarkOrder d order) :
    ∃ R, visualNormFst d σ order = some R ∧ FunctionOn σ R := by
  obtain ⟨R, hR, g, m⟩ := visualNorm_graph hd hσ ho
  exact ⟨R, hR, fun s hs => ⟨_, (g _ _).2 ⟨hs, rfl⟩, m s hs, fun t h => ((g _ _).1 h).2⟩⟩

/-- C10 for the Assamese and Bengali variants (tables with one rule each). -/
theorem C10_visual_function_lang {d : BrahmicData} (hd : d ∈ Data.scripts) {σ : Nat → Prop}
    (hσ : GoodSigma d σ) {order : List Nat} (ho : MarkOrder d order) {before after : List Rule}
    (hb : (before, after) ∈ [(Data.bengAsBeforeConsonant, Data.bengAsAfterConsonant),
      (Data.bengBnBeforeConsonant, Data.bengBnAfterConsonant)])
    (hbσ : Writes σ before) (haσ : Writes σ after) :
    ∃ R, visualNormLangFst d before after σ order = some R ∧ FunctionOn σ R := by
  obtain ⟨R, hR, g, m⟩ := visualNorm_graph hd hσ ho
  have hbe : LhsNonempty before ∧ PrefixDet before ∧ LhsNonempty after ∧ PrefixDet after := by
    simp only [List.mem_cons, Prod.mk.injEq, List.not_mem_nil, or_false] at hb
    rcases hb with ⟨rfl, rfl⟩ | ⟨rfl, rfl⟩ <;>
      exact ⟨by intro p hp; simp [Data.bengAsBeforeConsonant, Data.bengBnBeforeConsonant] at hp; simp [hp],
        prefixDet_single _,
        by intro p hp; simp [Data.bengAsAfterConsonant, Data.bengBnAfterConsonant] at hp; simp [hp],
        prefixDet_single _⟩
  obtain ⟨hb1, hb2, ha1, ha2⟩ := hbe
  have gB : Graph σ (Rewrite (Rel.stringMap before) σ ⟨fun _ => True, startsIn (consonantLang d)⟩)
      (fun s => scanC ⟨fun _ => true, startsInB d.consonant⟩ before [] 0 s) := by
    intro s t
    rw [consonantLang, ← rightCtx_toCtx]
    exact rewriteC_iff hb1 (hb2.detAt _) hbσ
  have gA : Graph σ (Rewrite (Rel.stringMap after) σ ⟨endsIn (consonantLang d), fun _ => True⟩)
      (fun s => scanC ⟨endsInB d.consonant, fun _ => true⟩ after [] 0 s) := by
    intro s t
    rw [consonantLang, ← leftCtx_toCtx]
    exact rewriteC_iff ha1 (ha2.detAt _) haσ
  have mB : MapsOver σ σ (fun s => scanC ⟨fun _ => true, startsInB d.consonant⟩ before [] 0 s) :=
    fun s hs => over_scanC hbσ [] 0 s (by intro c hc; simp at hc) hs
  have mA : MapsOver σ σ (fun s => scanC ⟨endsInB d.consonant, fun _ => true⟩ after [] 0 s) :=
    fun s hs => over_scanC haσ [] 0 s (by intro c hc; simp at hc) hs
  have G := g.comp (gB.comp gA mB) m
  refine ⟨_, by simp only [visualNormLangFst, hR]; rfl, ?_⟩
  intro s hs
  exact ⟨_, (G _ _).2 ⟨hs, rfl⟩, mA _ (mB _ (m s hs)), fun t h => ((G _ _).1 h).2⟩

/-- C11. Visually normalizing a text and visually normalizing its NFC form give the same results. -/
theorem C11_visual_absorbs_nfc {d : BrahmicData} (hd : d ∈ Data.scripts) {σ : Nat → Prop}
    (hσ : GoodSigma d σ) {order : List Nat} (ho : MarkOrder d order) {V N : Rel}
    (hV : visualNormFst d σ order = some V) (hN : nfcFst d σ = some N)
    {s t : Str} (hst : N s t) (u : Str) : V s u ↔ V t u := by
  obtain ⟨_, hV', g, _⟩ := visualNorm_graph hd hσ ho
  rw [hV] at hV'; cases hV'
  obtain ⟨_, hN', gN, mN⟩ := nfc_graph hd hσ.nfc
  rw [hN] at hN'; cases hN'
  obtain ⟨hs, rfl⟩ := (gN _ _).1 hst
  rw [g, g]
  have e : visualNorm d (applyRules d.nfc s) = visualNorm d s := by
    unfold visualNorm; rw [cleanRules_idem (nfc_clean hd)]
  rw [e]
  exact ⟨fun h => ⟨mN s hs, h.2⟩, fun h => ⟨hs, h.2⟩⟩

/-- Specification of de-duplication: a character is dropped exactly when it is a mark and equals
the character before it. -/
def dropRepeats (isMark : Nat → Prop) [DecidablePred isMark] : Option Nat → Str → Str
  | _, [] => []
  | prev, a :: s =>
    if isMark a ∧ prev = some a then dropRepeats isMark (some a) s
    else a :: dropRepeats isMark (some a) s

/-- C12. Whatever the processing order, mark de-duplication is `dropRepeats`. -/
theorem C12_dedup_order (σ : Nat → Prop) {order : List Nat} (hne : order ≠ []) (s t : Str) :
    dedupChars σ order s t ↔ Over σ s ∧ t = dropRepeats (· ∈ order) none s := by
  rw [dedupChars_graph σ hne s t, collapse_eq]
  have : ∀ (prev : Option Nat) (s : Str),
      collapseFrom order prev s = dropRepeats (· ∈ order) prev s := by
    intro prev s
    induction s generalizing prev with
    | nil => rfl
    | cons a s ih =>
      simp only [collapseFrom, dropRepeats]
      by_cases h : prev = some a ∧ a ∈ order
      · rw [if_pos h, if_pos ⟨h.2, h.1⟩, ih, h.1]
      · rw [if_neg h, if_neg fun h' => h ⟨h'.2, h'.1⟩, ih]
  rw [this]

/-- C12. Two processing orders of the same set of marks give the same relation. -/
theorem C12_dedup_order_irrelevant (σ : Nat → Prop) {order order' : List Nat}
    (h : ∀ c, c ∈ order ↔ c ∈ order') : dedupChars σ order = dedupChars σ order' := by
  by_cases hne : order = []
  · have : order' = [] := by
      cases order' with
      | nil => rfl
      | cons c o => have := (h c).2 (by simp); rw [hne] at this; simp at this
    rw [hne, this]
  · have hne' : order' ≠ [] := by
      intro h'
      cases order with
      | nil => exact hne rfl
      | cons c o => have := (h c).1 (by simp); rw [h'] at this; simp at this
    funext s t
    rw [dedupChars_graph σ hne s t, dedupChars_graph σ hne' s t, collapse_congr h]

/-- C13. In visually normalized text a zero width space never occurs, and a joiner or non-joiner
only occurs inside a preserved sequence that stands directly between two consonants. -/
theorem C13_joiners {d : BrahmicData} (hd : d ∈ Data.scripts) {σ : Nat → Prop}
    (hσ : GoodSigma d σ) {order : List Nat} (ho : MarkOrder d order) {V : Rel}
    (hV : visualNormFst d σ order = some V) {s t : Str} (hst : V s t)
    {a b : Str} {c : Nat} (ht : t = a ++ c :: b) (hc : c ∈ [ZWNJ, ZWJ, ZWS]) :
    c ≠ ZWS ∧ ∃ p ∈ d.preserve, ∃ x y u v, p.1 = x ++ c :: y ∧ a = u ++ x ∧ b = y ++ v ∧
      endsIn (consonantLang d) u ∧ startsIn (consonantLang d) v := by
  have hok := visualOk_of hd
  obtain ⟨_, hV', g, _⟩ := visualNorm_graph hd hσ ho
  rw [hV] at hV'; cases hV'
  obtain ⟨hs, htv⟩ := (g _ _).1 hst
  have hcj : isJoiner c = true := memNat_iff.2 hc
  -- text before marking
  obtain ⟨_, _, _, mN⟩ := nfc_graph hd hσ.nfc
  obtain ⟨_, _, _, mV⟩ := noConflict_graph (visualOk_rewrite hok) hσ.visual
  let w := applyRules d.visualRewrite (collapse (joiners ++ d.marks) (applyRules d.nfc s))
  have hw : Over σ w := mV _ (over_collapse _ _ (mN _ hs))
  have htw : t = (dropJoiners (markPreserve d w)).flatMap (charMap (invRows d.preserve)) := by
    rw [htv, ← reinstate_eq hok]; rfl
  rw [ht] at htw
  obtain ⟨s₁, e, s₂, x, y, h1, h2, h3, h4⟩ := flatMap_split htw.symm
  -- `e` is a generated symbol
  have hmem : e ∈ dropJoiners (markPreserve d w) := by rw [h1]; simp
  have hmem' := List.mem_filter.1 hmem
  have hgen : generated e := by
    refine Classical.byContradiction fun hng => ?_
    rw [charMap_plain hok hng] at h2
    have : c = e := by
      cases x with
      | nil => simp at h2; exact h2.1.symm
      | cons x xs => simp at h2
    rw [← this] at hmem'
    rw [hcj] at hmem'
    exact absurd hmem'.2 (by simp)
  obtain ⟨p, hp, hpe⟩ : ∃ p ∈ d.preserve, p.2 = [e] := by
    rcases markPreserve_over hok w hw e hmem'.1 with h | h
    · exact absurd hgen (hσ.noGenerated e h)
    · exact h
  rw [charMap_gen hok hp hpe] at h2
  -- position of `e` before joiners were dropped
  obtain ⟨m₁, m₂, hm, hm1, hm2⟩ := List.filter_eq_append_iff.1 h1
  obtain ⟨l₁, l₂, hl, hl1, _, hl2⟩ := List.filter_eq_cons_iff.1 hm2
  have hm' : markPreserve d w = (m₁ ++ l₁) ++ e :: l₂ := by rw [hm, hl]; simp
  have hf : dropJoiners (m₁ ++ l₁) = s₁ := by
    unfold dropJoiners
    rw [List.filter_append, hm1, List.filter_eq_nil_iff.2 hl1, List.append_nil]
  obtain ⟨⟨k, hk, ⟨q, hq⟩, hkc⟩, ⟨k', hk', ⟨q', hq'⟩, hkc'⟩⟩ :=
    markPreserve_between hok [] w (fun c hc => hσ.noGenerated c (hw c hc)) _ _ _ hm' hgen (by simp)
  have keep : ∀ z : Str, (∀ c ∈ z, ¬ isJoiner c = true ∧ ¬ generated c) →
      (dropJoiners z).flatMap (charMap (invRows d.preserve)) = z := by
    intro z hz
    have e1 : dropJoiners z = z := List.filter_eq_self.2 fun c hc => by simpa using (hz c hc).1
    rw [e1]
    induction z with
    | nil => rfl
    | cons c z ih =>
      rw [List.flatMap_cons, charMap_plain hok (hz c (by simp)).2,
        ih (fun c hc => hz c (List.mem_cons_of_mem _ hc))
          (List.filter_eq_self.2 fun c' hc' => by simpa using (hz c' (List.mem_cons_of_mem _ hc')).1)]
      rfl
  refine ⟨?_, p, hp, x, y, s₁.flatMap (charMap (invRows d.preserve)),
    s₂.flatMap (charMap (invRows d.preserve)), h2, h3, h4, ?_, ?_⟩
  · exact ((visualOk_preserve hok hp).2.1 c (by rw [h2]; simp)).2
  · refine ⟨(dropJoiners q).flatMap (charMap (invRows d.preserve)), k.1, ?_, k.2, hk⟩
    rw [← hf, ← hq]
    unfold dropJoiners
    rw [List.filter_append, List.flatMap_append]
    congr 1
    exact keep k.1 hkc
  · refine ⟨k'.1, (dropJoiners q').flatMap (charMap (invRows d.preserve)), ?_, k'.2, hk'⟩
    rw [← hl2, ← hq']
    rw [List.filter_append, List.flatMap_append]
    congr 1
    exact keep k'.1 hkc'

/-! ## Instances -/

/-- Virama + ZWNJ between consonants survives, the stray ZWJ does not. -/
example : visualNorm Data.gujr [0xA95, 0xACD, 0x200C, 0xAB7, 0x200D] = [0xA95, 0xACD, 0x200C, 0xAB7] := by
  decide +kernel
example : visualNorm Data.gujr [0xACD, 0x200C, 0xAB7, 0x200B] = [0xACD, 0xAB7] := by
  decide +kernel
example : MarkOrder Data.gujr (joiners ++ Data.gujr.marks) := fun _ => List.mem_append
example : dropRepeats (· ∈ [5, 6]) none [5, 5, 6, 5, 5, 7, 7, 6, 6, 6] = [5, 6, 5, 7, 7, 6] := by
  decide

end Nisaba.Props
