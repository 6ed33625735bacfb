import Verif.Lemmas.VisualTables
/-!
# The compiled visual normalizer is the graph of `visualNorm`
-/
namespace Nisaba

/-- Alphabets for which visual normalization of a script is total: no generated symbols, and all
characters that NFC, the visual rewrites and the preserved sequences write. -/
structure GoodSigma (d : BrahmicData) (σ : Nat → Prop) : Prop where
  noGenerated : ∀ c, σ c → ¬ generated c
  nfc : ∀ p ∈ d.nfc, Over σ p.2
  visual : ∀ p ∈ d.visualRewrite, Over σ p.2
  preserve : ∀ p ∈ d.preserve, Over σ p.1

theorem nfc_graph {d : BrahmicData} (hd : d ∈ Data.scripts) {σ : Nat → Prop}
    (hσ : ∀ p ∈ d.nfc, Over σ p.2) :
    ∃ R, nfcFst d σ = some R ∧ Graph σ R (applyRules d.nfc) ∧ MapsOver σ σ (applyRules d.nfc) := by
  obtain ⟨sets, hs⟩ := cleanRules_ok (nfc_clean hd)
  have e : nfcFst d σ = some (rewriteAndCompose sets σ) := by simp [nfcFst, fstFromRules, hs]
  refine ⟨_, e, fun s t => fstFromRules_iff (cleanRules_nonempty (nfc_clean hd)) hσ e, ?_⟩
  intro s hs'
  unfold applyRules stages
  rw [hs]
  exact over_scanAll (fun st hst p hp => hσ p (mem_sets_rules hs hst hp)) hs'

theorem visualOk_of {d : BrahmicData} (hd : d ∈ Data.scripts) : visualOk d = true :=
  List.all_eq_true.1 visualOk_all d hd

section facts
variable {d : BrahmicData} (h : visualOk d = true)
include h

theorem visualOk_rewrite : noConflict d.visualRewrite = true := by
  simp only [visualOk, Bool.and_eq_true] at h; exact h.1.1.1.1

theorem visualOk_preserveDet : PrefixDet d.preserve := by
  simp only [visualOk, Bool.and_eq_true] at h; exact prefixDetB_iff h.1.1.1.2

theorem visualOk_invDet : PrefixDet (invRows d.preserve) := by
  simp only [visualOk, Bool.and_eq_true] at h; exact prefixDetB_iff h.1.1.2

theorem visualOk_preserve {p : Rule} (hp : p ∈ d.preserve) :
    p.1 ≠ [] ∧ (∀ c ∈ p.1, ¬ generated c ∧ c ≠ ZWS) ∧ ∃ g, p.2 = [g] ∧ generated g := by
  simp only [visualOk, Bool.and_eq_true, List.all_eq_true] at h
  have := h.1.2 p hp
  refine ⟨?_, ?_, ?_⟩
  · intro hn; simp [hn] at this
  · intro c hc
    have h2 := this.1.2 c hc
    constructor
    · have h3 := Nat.le_of_ble_eq_true h2.1
      unfold generated; omega
    · rintro rfl; simp at h2
  · have h3 := this.2
    split at h3
    · rename_i g hg
      exact ⟨g, hg, Nat.le_of_ble_eq_true h3⟩
    · simp at h3

theorem visualOk_consonant {p : Rule} (hp : p ∈ d.consonant) : consonantOk d p.1 = true := by
  simp only [visualOk, Bool.and_eq_true, List.all_eq_true] at h
  exact h.2 p hp

end facts

theorem mem_invRows {rows : List Rule} {p : Rule} : p ∈ invRows rows ↔ (p.2, p.1) ∈ rows := by
  simp only [invRows, List.mem_map]
  constructor
  · rintro ⟨q, hq, rfl⟩; exact hq
  · intro h; exact ⟨_, h, rfl⟩

/-- Executable pieces. -/
def markPreserve (d : BrahmicData) (s : Str) : Str := scanC (consCtx d) d.preserve [] 0 s
def dropJoiners (s : Str) : Str := s.filter fun c => !isJoiner c
def reinstate (d : BrahmicData) (s : Str) : Str := scan (invRows d.preserve) 0 s

theorem coreVisual_eq (d : BrahmicData) (s : Str) :
    coreVisual d s = reinstate d (dropJoiners (markPreserve d (applyRules d.visualRewrite s))) := rfl

/-- Characters of `markPreserve`'s output: input characters and generated symbols of the table. -/
def Marked (d : BrahmicData) (σ : Nat → Prop) : Nat → Prop :=
  fun c => σ c ∨ ∃ p ∈ d.preserve, p.2 = [c]

theorem markPreserve_over {d : BrahmicData} (hok : visualOk d = true) {σ : Nat → Prop} :
    MapsOver σ (Marked d σ) (markPreserve d) := by
  intro s hs
  refine over_scanC ?_ [] 0 s (by intro c hc; simp at hc) (fun c hc => Or.inl (hs c hc))
  intro p hp c hc
  obtain ⟨_, _, g, hg, _⟩ := visualOk_preserve hok hp
  rw [hg] at hc; simp at hc; subst hc
  exact Or.inr ⟨p, hp, hg⟩

theorem dropJoiners_over {σ : Nat → Prop} : MapsOver σ σ dropJoiners := by
  intro s hs c hc
  exact hs c (List.mem_filter.1 hc).1

theorem charMap_mem {rs : List Rule} {c d : Nat} (h : d ∈ charMap rs c) :
    (∃ p ∈ rs, p.1 <+: [c] ∧ d ∈ p.2) ∨ (d = c ∧ ∀ p ∈ rs, ¬ p.1 <+: [c]) := by
  unfold charMap at h
  cases hf : findRule rs [c] with
  | none => rw [hf] at h; simp at h; exact Or.inr ⟨h, findRule_none hf⟩
  | some p =>
    rw [hf] at h
    exact Or.inl ⟨p, (findRule_some hf).1, (findRule_some hf).2, h⟩

theorem invRows_single {d : BrahmicData} (hok : visualOk d = true) :
    ∀ p ∈ invRows d.preserve, p.1.length = 1 := by
  intro p hp
  obtain ⟨_, _, g, hg, _⟩ := visualOk_preserve hok (mem_invRows.1 hp)
  simp only at hg
  rw [hg]; rfl

theorem reinstate_eq {d : BrahmicData} (hok : visualOk d = true) (s : Str) :
    reinstate d s = s.flatMap (charMap (invRows d.preserve)) :=
  scan_singleLhs (invRows_single hok) s

theorem reinstate_over {d : BrahmicData} (hok : visualOk d = true) {σ : Nat → Prop}
    (hp : ∀ p ∈ d.preserve, Over σ p.1) : MapsOver (Marked d σ) σ (reinstate d) := by
  intro s hs c hc
  rw [reinstate_eq hok, List.mem_flatMap] at hc
  obtain ⟨e, he, hc⟩ := hc
  rcases charMap_mem hc with ⟨p, hpm, _, hcp⟩ | ⟨rfl, hno⟩
  · exact hp _ (mem_invRows.1 hpm) c hcp
  · rcases hs _ he with h | ⟨p, hpm, hpe⟩
    · exact h
    · exfalso
      exact hno (p.2, p.1) (mem_invRows.2 hpm) (by simp [hpe])

theorem markPreserve_graph {d : BrahmicData} (hok : visualOk d = true) {τ : Nat → Prop}
    (hτ : ∀ c, generated c → τ c) :
    Graph τ (Rewrite (Rel.stringMap d.preserve) τ
      ⟨endsIn (consonantLang d), startsIn (consonantLang d)⟩) (markPreserve d) := by
  intro s t
  rw [← consCtx_toCtx]
  refine rewriteC_iff (fun p hp => (visualOk_preserve hok hp).1)
    ((visualOk_preserveDet hok).detAt _) ?_
  intro p hp c hc
  obtain ⟨_, _, g, hg, hgen⟩ := visualOk_preserve hok hp
  rw [hg] at hc; simp at hc; subst hc
  exact hτ c hgen

theorem dropJoiners_graph (τ : Nat → Prop) :
    Graph τ (Rewrite (Rel.stringMap (joiners.map fun c => ([c], []))) τ) dropJoiners := by
  intro s t
  rw [rewrite_iff (by intro p hp; simp at hp; obtain ⟨c, _, rfl⟩ := hp; simp)
    (prefixDet_delete joiners)
    (by intro p hp; simp at hp; obtain ⟨c, _, rfl⟩ := hp; intro c hc; simp at hc), scan_delete]
  rfl

theorem inv_stringMap (rows : List Rule) :
    Rel.inv (Rel.stringMap rows) = Rel.stringMap (invRows rows) := by
  funext x y
  exact propext (mem_invRows (p := (x, y))).symm

theorem reinstate_graph {d : BrahmicData} (hok : visualOk d = true) {τ : Nat → Prop}
    (hτ : ∀ p ∈ d.preserve, Over τ p.1) :
    Graph τ (Rewrite (Rel.inv (Rel.stringMap d.preserve)) τ) (reinstate d) := by
  intro s t
  rw [inv_stringMap]
  refine rewrite_iff ?_ (visualOk_invDet hok) ?_
  · intro p hp hn
    have := invRows_single hok p hp
    rw [hn] at this; simp at this
  · intro p hp
    exact hτ _ (mem_invRows.1 hp)

theorem sigmaStar_graph (σ : Nat → Prop) : Graph σ (Rel.sigmaStar σ) (fun s => s) := by
  intro s t
  simp only [Rel.sigmaStar]
  exact ⟨fun h => ⟨h.2, h.1.symm⟩, fun h => ⟨h.2.symm, h.1⟩⟩

/-- Identification of the compiled grammar. -/
theorem visualNorm_graph {d : BrahmicData} (hd : d ∈ Data.scripts) {σ : Nat → Prop}
    (hσ : GoodSigma d σ) {order : List Nat} (ho : ∀ c, c ∈ order ↔ markChar d c) :
    ∃ R, visualNormFst d σ order = some R ∧ Graph σ R (visualNorm d) ∧
      MapsOver σ σ (visualNorm d) := by
  have hok := visualOk_of hd
  obtain ⟨N, hN, gN, mN⟩ := nfc_graph hd hσ.nfc
  obtain ⟨V, hV, gV, mV⟩ := noConflict_graph (visualOk_rewrite hok) hσ.visual
  have hne : order ≠ [] := by
    intro h
    have := (ho ZWNJ).2 (Or.inl (by simp [joiners]))
    rw [h] at this; simp at this
  have gD := dedupChars_graph σ hne
  have mD : MapsOver σ σ (collapse order) := over_collapse order
  let σ' := intermediateSigma σ
  have gM := markPreserve_graph hok (τ := σ') (fun c h => Or.inl h)
  have gJ := dropJoiners_graph σ'
  have gR := reinstate_graph hok (τ := σ') (fun p hp c hc => Or.inr (hσ.preserve p hp c hc))
  have hMarked : ∀ c, Marked d σ c → σ' c := by
    rintro c (h | ⟨p, hp, hpe⟩)
    · exact Or.inr h
    · obtain ⟨_, _, g, hg, hgen⟩ := visualOk_preserve hok hp
      rw [hg] at hpe; simp at hpe; subst hpe
      exact Or.inl hgen
  have hcoll : ∀ s, collapse order s = collapse (joiners ++ d.marks) s := by
    intro s
    refine collapse_congr (fun c => ?_) s
    rw [ho, List.mem_append]; rfl
  have mVis : MapsOver σ σ (visualNorm d) := by
    intro s hs
    unfold visualNorm
    rw [← hcoll, coreVisual_eq]
    exact reinstate_over hok hσ.preserve _ (dropJoiners_over _
      (markPreserve_over hok _ (mV _ (mD _ (mN _ hs)))))
  refine ⟨_, by simp only [visualNormFst, coreVisualNormFsts, hN, hV]; rfl, ?_, mVis⟩
  simp only [List.cons_append, List.nil_append, composeRels]
  intro s t
  constructor
  · rintro ⟨a, h1, b, h2, c, h3, e, h4, f, h5, g, h6, h7⟩
    obtain ⟨hs, rfl⟩ := (gN _ _).1 h1
    obtain ⟨_, rfl⟩ := (gD _ _).1 h2
    obtain ⟨_, rfl⟩ := (gV _ _).1 h3
    obtain ⟨_, rfl⟩ := (gM _ _).1 h4
    obtain ⟨_, rfl⟩ := (gJ _ _).1 h5
    obtain ⟨_, rfl⟩ := (gR _ _).1 h6
    obtain ⟨_, rfl⟩ := (sigmaStar_graph σ _ _).1 h7
    refine ⟨hs, ?_⟩
    unfold visualNorm
    rw [← hcoll, coreVisual_eq]
  · rintro ⟨hs, rfl⟩
    have o1 := mN _ hs
    have o2 := mD _ o1
    have o3 := mV _ o2
    have o4 := markPreserve_over hok _ o3
    have o5 := dropJoiners_over _ o4
    have up : ∀ {x : Str}, Over (Marked d σ) x → Over σ' x := fun h c hc => hMarked c (h c hc)
    have e : visualNorm d s = reinstate d (dropJoiners (markPreserve d
        (applyRules d.visualRewrite (collapse order (applyRules d.nfc s))))) := by
      unfold visualNorm
      rw [← hcoll, coreVisual_eq]
    exact ⟨_, (gN _ _).2 ⟨hs, rfl⟩, _, (gD _ _).2 ⟨o1, rfl⟩, _, (gV _ _).2 ⟨o2, rfl⟩,
      _, (gM _ _).2 ⟨fun c hc => Or.inr (o3 c hc), rfl⟩, _, (gJ _ _).2 ⟨up o4, rfl⟩,
      _, (gR _ _).2 ⟨up o5, rfl⟩, e ▸ (sigmaStar_graph σ _ _).2 ⟨mVis s hs, rfl⟩⟩

/-! ## Where joiners survive -/

theorem scanC_extends (C : BCtx) (rs : List Rule) (out : Str) (k : Nat) (s : Str) :
    ∃ w, scanC C rs out k s = out ++ w := by
  induction s generalizing out k with
  | nil => exact ⟨[], by simp [scanC]⟩
  | cons c s ih =>
    cases k with
    | succ k => simp only [scanC]; exact ih out k
    | zero =>
      simp only [scanC]
      cases findRuleC C out (c :: s) rs with
      | none => obtain ⟨w, hw⟩ := ih (out ++ [c]) 0; exact ⟨c :: w, by simp [hw]⟩
      | some p =>
        obtain ⟨w, hw⟩ := ih (out ++ p.2) (p.1.length - 1)
        exact ⟨p.2 ++ w, by simp only [hw, List.append_assoc]⟩

/-- A prefix none of whose characters can start a match is copied. -/
theorem scanC_copy {C : BCtx} {rs : List Rule} (hne : LhsNonempty rs) {z : Str}
    (hz : ∀ c ∈ z, ∀ p ∈ rs, ¬ [c] <+: p.1) (out r : Str) :
    scanC C rs out 0 (z ++ r) = scanC C rs (out ++ z) 0 r := by
  induction z generalizing out with
  | nil => simp
  | cons c z ih =>
    have hf : findRuleC C out (c :: (z ++ r)) rs = none := by
      cases hf : findRuleC C out (c :: (z ++ r)) rs with
      | none => rfl
      | some p =>
        exfalso
        obtain ⟨hp, he, _⟩ := findRuleC_some hf
        have := hne p hp
        match hp1 : p.1, this with
        | a :: l, _ =>
          rw [hp1] at he
          simp only [List.cons_append, List.cons.injEq] at he
          refine hz c (by simp) p hp ?_
          rw [hp1, he.1]; simp
    simp only [List.cons_append, scanC, hf]
    rw [ih (fun c hc => hz c (List.mem_cons_of_mem _ hc))]
    simp

/-- Every generated symbol written by `markPreserve` stands between consonants. -/
theorem markPreserve_between {d : BrahmicData} (hok : visualOk d = true) (out s : Str)
    (hs : ∀ c ∈ s, ¬ generated c) (a b : Str) (g : Nat)
    (h : scanC (consCtx d) d.preserve out 0 s = a ++ g :: b) (hg : generated g)
    (hlen : out.length ≤ a.length) :
    (∃ y ∈ d.consonant, y.1 <:+ a ∧ ∀ c ∈ y.1, ¬ isJoiner c = true ∧ ¬ generated c) ∧
    (∃ y ∈ d.consonant, y.1 <+: b ∧ ∀ c ∈ y.1, ¬ isJoiner c = true ∧ ¬ generated c) := by
  have hne : LhsNonempty d.preserve := fun p hp => (visualOk_preserve hok hp).1
  generalize hn : s.length = n
  induction n using Nat.strongRecOn generalizing s out with
  | _ n ih =>
    cases s with
    | nil =>
      simp only [scanC] at h
      rw [h] at hlen; simp at hlen; omega
    | cons c s =>
      cases hf : findRuleC (consCtx d) out (c :: s) d.preserve with
      | none =>
        simp only [scanC, hf] at h
        rcases Nat.lt_or_ge out.length a.length with hl | hl
        · exact ih s.length (by simp at hn; omega) (out ++ [c]) s
            (fun c hc => hs c (List.mem_cons_of_mem _ hc)) h (by simp; omega) rfl
        · exfalso
          obtain ⟨w, hw⟩ := scanC_extends (consCtx d) d.preserve (out ++ [c]) 0 s
          rw [hw] at h
          have e : out.length = a.length := by omega
          rw [List.append_assoc] at h
          have := (List.append_inj h e).2
          simp at this
          exact hs c (by simp) (this.1 ▸ hg)
      | some p =>
        have hap := findRuleC_some hf
        obtain ⟨hp, he, hl, hr⟩ := hap
        rw [scanC_cons_some hne hf] at h
        obtain ⟨hp1, _, g', hg', hgen'⟩ := visualOk_preserve hok hp
        have hlen' : ((c :: s).drop p.1.length).length < n := by
          have : p.1.length ≠ 0 := fun e => hp1 (List.length_eq_zero_iff.1 e)
          simp only [List.length_drop, List.length_cons] at *
          omega
        have hs' : ∀ e ∈ (c :: s).drop p.1.length, ¬ generated e :=
          fun e he => hs e (List.mem_of_mem_drop he)
        rcases Nat.lt_or_ge out.length a.length with hlt | hge
        · exact ih _ hlen' (out ++ p.2) _ hs' h (by rw [hg']; simp; omega) rfl
        · have e : out.length = a.length := by omega
          -- right context
          have hr' := (startsIn_iff (rows := d.consonant)).2 hr
          obtain ⟨x, r, hxr, y, hxy⟩ := hr'
          have hcx := visualOk_consonant hok hxy
          simp only [consonantOk, Bool.and_eq_true, List.any_eq_true, isPre_iff,
            List.all_eq_true] at hcx
          obtain ⟨_, z, hz, ⟨r', hzx⟩, hzc⟩ := hcx
          have hz1 : ∀ c ∈ z.1, ¬ isJoiner c = true ∧ ¬ generated c := by
            intro c hc
            have := (hzc c hc).1
            refine ⟨by simpa using this.1, ?_⟩
            have := Nat.le_of_ble_eq_true this.2
            unfold generated; omega
          have hz2 : ∀ c ∈ z.1, ∀ p ∈ d.preserve, ¬ [c] <+: p.1 := by
            intro c hc p hp
            have := (hzc c hc).2 p hp
            rw [← isPre_iff]; simpa using this
          rw [hxr, ← hzx, List.append_assoc, scanC_copy hne hz2] at h
          obtain ⟨w, hw⟩ := scanC_extends (consCtx d) d.preserve (out ++ p.2 ++ z.1) 0 (r' ++ r)
          rw [hw, hg'] at h
          simp only [List.append_assoc] at h
          obtain ⟨h1, h2⟩ := List.append_inj h e
          simp at h2
          refine ⟨?_, ⟨z, hz, ⟨w, h2.2⟩, hz1⟩⟩
          -- left context
          have hl' := (endsIn_iff (rows := d.consonant)).2 hl
          obtain ⟨q, x', hqx, y', hxy'⟩ := hl'
          have hcx := visualOk_consonant hok hxy'
          simp only [consonantOk, Bool.and_eq_true, List.any_eq_true, isPre_iff,
            List.all_eq_true, List.reverse_prefix] at hcx
          obtain ⟨⟨v, hv, hvx, hvc⟩, _⟩ := hcx
          refine ⟨v, hv, ?_, ?_⟩
          · rw [← h1, hqx]; exact hvx.trans (List.suffix_append q x')
          · intro c hc
            have := hvc c hc
            refine ⟨by simpa using this.1, ?_⟩
            have := Nat.le_of_ble_eq_true this.2
            unfold generated; omega

theorem charMap_plain {d : BrahmicData} (hok : visualOk d = true) {c : Nat} (hc : ¬ generated c) :
    charMap (invRows d.preserve) c = [c] := by
  unfold charMap
  cases hf : findRule (invRows d.preserve) [c] with
  | none => rfl
  | some p =>
    exfalso
    obtain ⟨h1, h2⟩ := findRule_some hf
    obtain ⟨_, _, g, hg, hgen⟩ := visualOk_preserve hok (mem_invRows.1 h1)
    simp only at hg
    rw [hg] at h2
    have : g = c := by simpa using (List.cons_prefix_cons.1 h2).1
    exact hc (this ▸ hgen)

theorem charMap_gen {d : BrahmicData} (hok : visualOk d = true) {p : Rule} (hp : p ∈ d.preserve)
    {g : Nat} (hg : p.2 = [g]) : charMap (invRows d.preserve) g = p.1 := by
  unfold charMap
  have : findRule (invRows d.preserve) [g] = some (p.2, p.1) :=
    findRule_eq_some (visualOk_invDet hok) (mem_invRows.2 hp) (by simp [hg])
  rw [this]

/-- Positions inside a concatenation of pieces. -/
theorem flatMap_split {f : Nat → Str} {s a b : Str} {c : Nat} (h : s.flatMap f = a ++ c :: b) :
    ∃ s₁ e s₂ u v, s = s₁ ++ e :: s₂ ∧ f e = u ++ c :: v ∧ a = s₁.flatMap f ++ u ∧
      b = v ++ s₂.flatMap f := by
  induction s generalizing a with
  | nil => simp at h
  | cons e s ih =>
    rw [List.flatMap_cons] at h
    rcases List.append_eq_append_iff.1 h with ⟨a', h1, h2⟩ | ⟨c', h1, h2⟩
    · obtain ⟨s₁, e', s₂, u, v, h3, h4, h5, h6⟩ := ih h2
      exact ⟨e :: s₁, e', s₂, u, v, by rw [h3]; rfl, h4, by rw [h1, h5]; simp, h6⟩
    · cases c' with
      | nil =>
        simp only [List.append_nil] at h1
        simp only [List.nil_append] at h2
        obtain ⟨s₁, e', s₂, u, v, h3, h4, h5, h6⟩ := ih (a := []) h2.symm
        refine ⟨e :: s₁, e', s₂, u, v, by rw [h3]; rfl, h4, ?_, h6⟩
        rw [List.flatMap_cons, List.append_assoc, ← h5, h1]; simp
      | cons x c' =>
        simp only [List.cons_append, List.cons.injEq] at h2
        exact ⟨[], e, s, a, c', rfl, by rw [h1, h2.1], by simp, h2.2⟩

end Nisaba
