import Verif.Lemmas.NfcTables
/-!
# Pan-Brahmic NFC
-/
namespace Nisaba

theorem brahmic_stages : partitionUnordered brahmicNfcRules = .ok (stages brahmicNfcRules) := by
  have := brahmic_ok
  unfold stages
  cases h : partitionUnordered brahmicNfcRules <;> simp [h, isOk] at this ⊢

theorem brahmic_nonempty : LhsNonempty brahmicNfcRules := by
  intro p hp hnil
  have := List.all_eq_true.1 brahmic_monoB p hp
  simp [hnil] at this

theorem brahmic_mono : Mono nfcCls brahmicNfcRules := by
  intro p hp
  have := List.all_eq_true.1 brahmic_monoB p hp
  simp only [Bool.and_eq_true] at this
  have h := this.1
  unfold monoB at h
  cases hr : p.2 with
  | nil => simp [hr] at h
  | cons r rs =>
    simp only [hr, Bool.and_eq_true, List.all_eq_true] at h
    refine ⟨by simp, nfcCls r, ?_, ?_⟩
    · intro c hc; exact Nat.eq_of_beq_eq_true (h.1 c hc)
    · intro c hc
      rcases List.mem_cons.1 hc with rfl | hc
      · rfl
      · exact Nat.eq_of_beq_eq_true (h.2 c hc)

theorem brahmic_stage_rules {st : List Rule} (h : st ∈ stages brahmicNfcRules) {p : Rule}
    (hp : p ∈ st) : p ∈ brahmicNfcRules := mem_sets_rules brahmic_stages h hp

theorem brahmic_rule_stage {p : Rule} (hp : p ∈ brahmicNfcRules) :
    ∃ st ∈ stages brahmicNfcRules, p ∈ st := by
  have G := goodSplit_of_ok brahmic_stages
  have := (G.mem p).2 (mem_nodes.2 hp)
  obtain ⟨st, h1, h2⟩ := List.mem_flatten.1 this
  exact ⟨st, h1, h2⟩

theorem mem_of_stagesEq {a b : List (List Rule)} (h : stagesEq a b = true) {y : List Rule}
    (hy : y ∈ b) {p : Rule} (hp : p ∈ y) : ∃ x ∈ a, p ∈ x := by
  induction a generalizing b with
  | nil =>
    simp only [stagesEq, List.all_eq_true, List.isEmpty_iff] at h
    rw [h y hy] at hp; simp at hp
  | cons x a ih =>
    cases b with
    | nil => simp at hy
    | cons z b =>
      simp only [stagesEq, Bool.and_eq_true] at h
      rcases List.mem_cons.1 hy with rfl | hy
      · exact ⟨x, by simp, by rw [stagesEq_go h.1]; exact hp⟩
      · obtain ⟨x', h1, h2⟩ := ih h.2 hy
        exact ⟨x', List.mem_cons_of_mem _ h1, h2⟩

theorem stages_mem {rules : List Rule} {st : List Rule} (h : st ∈ stages rules) {p : Rule}
    (hp : p ∈ st) : p ∈ rules := by
  unfold stages at h
  cases hs : partitionUnordered rules with
  | ok sets => rw [hs] at h; exact mem_sets_rules hs h hp
  | _ => rw [hs] at h; simp at h

/-- The pan-Brahmic rules over a script's characters are the script's own. -/
theorem keepOver_own {cs : List Nat} {d : BrahmicData} (h : agreesOn cs d = true) {st : List Rule}
    (hst : st ∈ stages brahmicNfcRules) {p : Rule} (hp : p ∈ keepOver cs st) : p ∈ d.nfc := by
  obtain ⟨x, h1, h2⟩ := mem_of_stagesEq h (List.mem_map_of_mem hst) hp
  exact stages_mem h1 h2

theorem brahmic_eq_script {cs : List Nat} {d : BrahmicData} (h : agreesOn cs d = true)
    (hcs : ∀ p ∈ d.nfc, ∀ c ∈ p.2, c ∈ cs) {s : Str} (hs : ∀ c ∈ s, c ∈ cs) :
    applyRules brahmicNfcRules s = applyRules d.nfc s := by
  unfold applyRules
  rw [scanAll_keep (cs := cs) ?_ hs]
  · exact (stagesEq_scanAll h s).symm
  · intro st hst p hp
    exact hcs p (keepOver_own h hst hp)

theorem brahmic_noLhs (x : Str) : ∀ p ∈ brahmicNfcRules, ¬ p.1 <:+: applyRules brahmicNfcRules x := by
  intro p hp
  have hne : ∀ st ∈ stages brahmicNfcRules, LhsNonempty st :=
    fun st hst q hq => brahmic_nonempty q (brahmic_stage_rules hst hq)
  have hm : ∀ st ∈ stages brahmicNfcRules, Mono nfcCls st :=
    fun st hst q hq => brahmic_mono q (brahmic_stage_rules hst hq)
  refine noBad_of_runs (bad := brahmicNfcRules.map (·.1)) hne hm ?_ ?_ x p.1
    (List.mem_map_of_mem hp)
  · intro l hl
    obtain ⟨q, hq, rfl⟩ := List.mem_map.1 hl
    obtain ⟨_, k, hk, _⟩ := brahmic_mono q hq
    exact ⟨brahmic_nonempty q hq, k, hk⟩
  · intro k a ha l hl hin
    obtain ⟨q, hq, rfl⟩ := List.mem_map.1 hl
    obtain ⟨f, hf⟩ := List.exists_mem_of_ne_nil _ (brahmic_nonempty q hq)
    have hout : ∀ c ∈ scanAll (stages brahmicNfcRules) a, nfcCls c = k := by
      have := (scanAll_cut hne hm (b := []) ha (by intro c t h; cases h)).2.1
      exact this
    have hq1 : ∀ c ∈ q.1, nfcCls c = k := fun c hc => hout c (hin.subset hc)
    -- the characters of `q` occur in some table, so the class is not 0
    have hdq : ∃ d ∈ Data.scripts, q ∈ d.nfc := by
      simpa [brahmicNfcRules, List.mem_flatMap] using hq
    obtain ⟨d, hd, hqd⟩ := hdq
    have hk0 : k ≠ 0 := by
      intro h0
      have h1 := hq1 f hf
      rw [h0] at h1
      refine clsOf_zero h1 (bothChars d.nfc) (List.mem_map_of_mem hd) ?_
      simp only [bothChars, List.mem_flatMap, List.mem_append]
      exact ⟨q, hqd, Or.inl hf⟩
    have hcls : ∀ c, nfcCls c = k → ∃ cs, classAt nfcClasses k = some cs ∧ c ∈ cs := by
      intro c hc
      have := clsOf_pos (l := nfcClasses) (c := c) (by show nfcCls c ≠ 0; omega)
      rw [show clsOf nfcClasses c = k from hc] at this
      exact this
    obtain ⟨cs, hcs, _⟩ := hcls f (hq1 f hf)
    have hin_cs : ∀ c, nfcCls c = k → c ∈ cs := by
      intro c hc
      obtain ⟨cs', h1, h2⟩ := hcls c hc
      rw [hcs] at h1; cases h1; exact h2
    obtain ⟨e, he, rfl⟩ := List.mem_map.1 (classAt_mem hcs)
    have hag := List.all_eq_true.1 brahmic_agrees_nfcChars e he
    have heq := brahmic_eq_script hag (s := a) (by
      intro p hp c hc
      simp only [bothChars, List.mem_flatMap, List.mem_append]
      exact ⟨p, hp, Or.inr hc⟩) (fun c hc => hin_cs c (ha c hc))
    obtain ⟨st, hst, hqst⟩ := brahmic_rule_stage hq
    have hqe : q ∈ e.nfc := by
      refine keepOver_own hag hst ?_
      simp only [keepOver, List.mem_filter]
      exact ⟨hqst, overB_iff.2 fun c hc => hin_cs c (hq1 c hc)⟩
    have := cleanRules_noLhs (nfc_clean he) a q hqe
    rw [← heq] at this
    exact this hin

end Nisaba
