import Verif.Lemmas.VisualFst
import Verif.Lemmas.Machine
/-!
# Visual normalization of text without joiners
-/
namespace Nisaba

def vnStages (d : BrahmicData) : List Stage :=
  (stages d.nfc).map .rules ++ .dedup (joiners ++ d.marks) :: (stages d.visualRewrite).map .rules

/-- Sequences that some stage would change. -/
def vnBad (d : BrahmicData) : List Str :=
  d.nfc.map (·.1) ++ ((joiners ++ d.marks).map fun m => [m, m]) ++ d.visualRewrite.map (·.1)

def vnAlpha (d : BrahmicData) : List Nat :=
  (dedupNat (inputChars d.nfc ++ d.marks ++ inputChars d.visualRewrite)).filter fun c => !isJoiner c

def writesNoJoiner (rules : List Rule) : Bool := rules.all fun p => p.2.all fun c => !isJoiner c

def idemTables (d : BrahmicData) : Bool :=
  (d.preserve.all fun p => p.1.any isJoiner) && writesNoJoiner d.nfc && writesNoJoiner d.visualRewrite

def idemClosed (d : BrahmicData) : Bool :=
  let sts := vnStages d
  let bad := vnBad d
  let alpha := vnAlpha d
  closedM sts bad alpha (exploreM sts bad alpha 5000 [([], [])] [([], [])])

/-- No joiners. -/
def plain (c : Nat) : Prop := c ∉ joiners

theorem plain_iff {c : Nat} : plain c ↔ isJoiner c = false := by
  rw [← Bool.not_eq_true]; exact not_congr memNat_iff.symm

theorem writesNoJoiner_rhs {rules : List Rule} (h : writesNoJoiner rules = true) :
    RhsOver plain rules := by
  intro p hp c hc
  have := List.all_eq_true.1 (List.all_eq_true.1 h p hp) c hc
  rw [plain_iff]; simpa using this

theorem applyRules_plain {rules : List Rule} (h : writesNoJoiner rules = true) {s : Str}
    (hs : Over plain s) : Over plain (applyRules rules s) :=
  over_scanAll (fun _ hst p hp => writesNoJoiner_rhs h p (by
    unfold stages at hst
    cases hs : partitionUnordered rules with
    | ok sets => rw [hs] at hst; exact mem_sets_rules hs hst hp
    | _ => rw [hs] at hst; simp at hst)) hs

theorem runAll_append (a b : List Stage) (s : Str) : runAll (a ++ b) s = runAll b (runAll a s) := by
  induction a generalizing s with
  | nil => rfl
  | cons x xs ih => simp [runAll, ih]

theorem runAll_rules (sts : List (List Rule)) (s : Str) :
    runAll (sts.map .rules) s = scanAll sts s := by
  induction sts generalizing s with
  | nil => rfl
  | cons st sts ih => simp [runAll, scanAll, Stage.run, ih]

theorem runAll_vnStages (d : BrahmicData) (s : Str) : runAll (vnStages d) s =
    applyRules d.visualRewrite (collapse (joiners ++ d.marks) (applyRules d.nfc s)) := by
  simp [vnStages, runAll_append, runAll_rules, runAll, Stage.run, applyRules]

theorem markPreserve_plain {d : BrahmicData} (ht : idemTables d = true)
    {x : Str} (hx : Over plain x) : markPreserve d x = x := by
  have : ∀ (out : Str), Over plain x → scanC (consCtx d) d.preserve out 0 x = out ++ x := by
    induction x with
    | nil => intro out _; simp [scanC]
    | cons c x ih =>
      intro out hx
      have hf : findRuleC (consCtx d) out (c :: x) d.preserve = none := by
        cases hf : findRuleC (consCtx d) out (c :: x) d.preserve with
        | none => rfl
        | some p =>
          exfalso
          obtain ⟨hp, he, _⟩ := findRuleC_some hf
          simp only [idemTables, Bool.and_eq_true, List.all_eq_true] at ht
          obtain ⟨j, hj, hjj⟩ := List.any_eq_true.1 (ht.1.1 p hp)
          exact hx j (by rw [he]; simp [hj]) (memNat_iff.1 hjj)
      have hx' : Over plain x := fun c hc => hx c (List.mem_cons_of_mem _ hc)
      simp only [scanC, hf]
      rw [ih hx' _ hx']
      simp
  simpa [markPreserve] using this [] hx

theorem dropJoiners_plain {x : Str} (hx : Over plain x) : dropJoiners x = x :=
  List.filter_eq_self.2 fun c hc => by simpa using plain_iff.1 (hx c hc)

theorem reinstate_plain {d : BrahmicData} (hok : visualOk d = true) {x : Str}
    (hx : ∀ c ∈ x, ¬ generated c) : reinstate d x = x := by
  rw [reinstate_eq hok]
  induction x with
  | nil => rfl
  | cons c x ih =>
    rw [List.flatMap_cons, charMap_plain hok (hx c (by simp)),
      ih fun c hc => hx c (List.mem_cons_of_mem _ hc)]
    rfl

/-- Joiner-free text goes through three stages only. -/
theorem visualNorm_plain {d : BrahmicData} (hd : d ∈ Data.scripts) (ht : idemTables d = true)
    {σ : Nat → Prop} (hσ : GoodSigma d σ) {s : Str} (hs : Over σ s) (hp : Over plain s) :
    visualNorm d s = runAll (vnStages d) s ∧ Over plain (visualNorm d s) := by
  have hok := visualOk_of hd
  obtain ⟨_, _, _, mN⟩ := nfc_graph hd hσ.nfc
  obtain ⟨_, _, _, mV⟩ := noConflict_graph (visualOk_rewrite hok) hσ.visual
  have ht' := ht
  simp only [idemTables, Bool.and_eq_true] at ht'
  have h1 : Over plain (applyRules d.visualRewrite
      (collapse (joiners ++ d.marks) (applyRules d.nfc s))) :=
    applyRules_plain ht'.2 (over_collapse _ _ (applyRules_plain ht'.1.2 hp))
  have h2 := mV _ (over_collapse (joiners ++ d.marks) _ (mN _ hs))
  have e : visualNorm d s = applyRules d.visualRewrite
      (collapse (joiners ++ d.marks) (applyRules d.nfc s)) := by
    unfold visualNorm
    rw [coreVisual_eq, markPreserve_plain ht h1, dropJoiners_plain h1,
      reinstate_plain hok fun c hc => hσ.noGenerated c (h2 c hc)]
  rw [runAll_vnStages, e]
  exact ⟨rfl, h1⟩

theorem stages_good {rules : List Rule} (hne : LhsNonempty rules) {st : List Rule}
    (h : st ∈ stages rules) : LhsNonempty st ∧ PrefixDet st := by
  unfold stages at h
  cases hs : partitionUnordered rules with
  | ok sets =>
    rw [hs] at h
    exact ⟨fun p hp => hne p (mem_sets_rules hs h hp), (goodSplit_of_ok hs).prefixDet st h⟩
  | _ => rw [hs] at h; simp at h

theorem stages_sub {rules : List Rule} {st : List Rule} (h : st ∈ stages rules) {p : Rule}
    (hp : p ∈ st) : p ∈ rules := by
  unfold stages at h
  cases hs : partitionUnordered rules with
  | ok sets => rw [hs] at h; exact mem_sets_rules hs h hp
  | _ => rw [hs] at h; simp at h

theorem vnStages_mem {d : BrahmicData} {st : Stage} (h : st ∈ vnStages d) :
    (∃ rs ∈ stages d.nfc, st = .rules rs) ∨ st = .dedup (joiners ++ d.marks) ∨
      ∃ rs ∈ stages d.visualRewrite, st = .rules rs := by
  simp only [vnStages, List.mem_append, List.mem_map, List.mem_cons] at h
  rcases h with ⟨rs, h, rfl⟩ | rfl | ⟨rs, h, rfl⟩
  · exact Or.inl ⟨rs, h, rfl⟩
  · exact Or.inr (Or.inl rfl)
  · exact Or.inr (Or.inr ⟨rs, h, rfl⟩)

theorem collapse_fixed {M : List Nat} {x : Str} (h : ∀ m ∈ M, ¬ [m, m] <:+: x) :
    collapse M x = x := by
  have : ∀ (a : Nat) (x : Str), (∀ m ∈ M, ¬ [m, m] <:+: a :: x) → collapseFrom M (some a) x = x := by
    intro a x
    induction x generalizing a with
    | nil => intro _; rfl
    | cons b x ih =>
      intro h
      simp only [collapseFrom]
      rw [if_neg, ih b fun m hm hin => h m hm (hin.trans (List.suffix_cons a _).isInfix)]
      rintro ⟨hab, hb⟩
      simp at hab; subst hab
      exact h a hb ⟨[], x, by simp⟩
  cases x with
  | nil => rfl
  | cons a x => rw [collapse_cons, this a x h]

theorem visual_idem_plain {d : BrahmicData} (hd : d ∈ Data.scripts) (ht : idemTables d = true)
    (hcl : idemClosed d = true) {σ : Nat → Prop} (hσ : GoodSigma d σ) {s : Str} (hs : Over σ s)
    (hp : Over plain s) : visualNorm d (visualNorm d s) = visualNorm d s := by
  have hok := visualOk_of hd
  have hn := cleanRules_nonempty (nfc_clean hd)
  have hv := noConflict_nonempty (visualOk_rewrite hok)
  obtain ⟨order, ho⟩ : ∃ order : List Nat, ∀ c, c ∈ order ↔ markChar d c :=
    ⟨joiners ++ d.marks, fun c => List.mem_append⟩
  obtain ⟨_, _, _, mVN⟩ := visualNorm_graph hd hσ ho
  have hbadne : ∀ l ∈ vnBad d, l ≠ [] := by
    intro l hl
    simp only [vnBad, List.mem_append, List.mem_map] at hl
    rcases hl with (⟨p, hp, rfl⟩ | ⟨m, _, rfl⟩) | ⟨p, hp, rfl⟩
    · exact hn p hp
    · simp
    · exact hv p hp
  have hal : ∀ c, (c ∈ inputChars d.nfc ∨ c ∈ d.marks ∨ c ∈ inputChars d.visualRewrite) → plain c →
      c ∈ vnAlpha d := by
    intro c hc hpl
    simp only [vnAlpha, List.mem_filter, mem_dedupNat, List.mem_append]
    refine ⟨?_, by simpa using plain_iff.1 hpl⟩
    rcases hc with h | h | h
    · exact Or.inl (Or.inl h)
    · exact Or.inl (Or.inr h)
    · exact Or.inr h
  obtain ⟨e, hplain⟩ := visualNorm_plain hd ht hσ hs hp
  have hno : ∀ l ∈ vnBad d, ¬ l <:+: runAll (vnStages d) s := by
    refine noBadM_of_closed plain ?_ hbadne ?_ ?_ ?_ hcl s hp
    · intro st hst
      rcases vnStages_mem hst with ⟨rs, h, rfl⟩ | rfl | ⟨rs, h, rfl⟩
      · exact stages_good hn h
      · trivial
      · exact stages_good hv h
    · intro l hl c hc hpl
      refine hal c ?_ hpl
      simp only [vnBad, List.mem_append, List.mem_map] at hl
      rcases hl with (⟨p, hp, rfl⟩ | ⟨m, hm, rfl⟩) | ⟨p, hp, rfl⟩
      · exact Or.inl (List.mem_flatMap.2 ⟨p, hp, hc⟩)
      · simp at hc; subst hc
        rcases hm with hm | hm
        · exact absurd hm hpl
        · exact Or.inr (Or.inl hm)
      · exact Or.inr (Or.inr (List.mem_flatMap.2 ⟨p, hp, hc⟩))
    · rintro l hl ⟨c, hc, hnp⟩
      refine ⟨c, hc, fun x hx hin => hnp ?_⟩
      rw [runAll_vnStages] at hin
      have ht' := ht
      simp only [idemTables, Bool.and_eq_true] at ht'
      exact applyRules_plain ht'.2 (over_collapse _ _ (applyRules_plain ht'.1.2 hx)) c hin
    · intro st hst c hc hpl
      refine hal c ?_ hpl
      rcases vnStages_mem hst with ⟨rs, h, rfl⟩ | rfl | ⟨rs, h, rfl⟩
      · obtain ⟨p, hp, hcp⟩ := List.mem_flatMap.1 hc
        exact Or.inl (List.mem_flatMap.2 ⟨p, stages_sub h hp, hcp⟩)
      · rcases List.mem_append.1 hc with h | h
        · exact absurd h hpl
        · exact Or.inr (Or.inl h)
      · obtain ⟨p, hp, hcp⟩ := List.mem_flatMap.1 hc
        exact Or.inr (Or.inr (List.mem_flatMap.2 ⟨p, stages_sub h hp, hcp⟩))
  rw [← e] at hno
  have e2 := (visualNorm_plain hd ht hσ (mVN s hs) hplain).1
  rw [e2, runAll_vnStages]
  have f1 : applyRules d.nfc (visualNorm d s) = visualNorm d s :=
    scanAll_fixed fun st hst p hp => hno p.1 (by
      simp only [vnBad, List.mem_append, List.mem_map]
      exact Or.inl (Or.inl ⟨p, stages_sub hst hp, rfl⟩))
  have f2 : collapse (joiners ++ d.marks) (visualNorm d s) = visualNorm d s :=
    collapse_fixed fun m hm => hno [m, m] (by
      simp only [vnBad, List.mem_append, List.mem_map]
      exact Or.inl (Or.inr ⟨m, List.mem_append.1 hm, rfl⟩))
  have f3 : applyRules d.visualRewrite (visualNorm d s) = visualNorm d s :=
    scanAll_fixed fun st hst p hp => hno p.1 (by
      simp only [vnBad, List.mem_append, List.mem_map]
      exact Or.inr ⟨p, stages_sub hst hp, rfl⟩)
  rw [f1, f2, f3]

end Nisaba
