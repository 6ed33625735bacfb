import Verif.Lemmas.NtInsert
/-!
# The last stages: from phonemes to translits, to letters, to IPA
-/
namespace Nisaba.NT

/-! ## Units -/

def TSHt : List Tok := [.p a!"t", .p a!"+", .p a!"sh"]
def DZHt : List Tok := [.p a!"d", .p a!"+", .p a!"zh"]
/-- The composite phonemes. -/
def comps : List (List Tok) := [AIt, AUt, TSHt, DZHt]

/-- Names of the phonemes that are one symbol. -/
def pNames : List Str :=
  [a!"a", a!"i", a!"u", a!"t", a!"d", a!"sh", a!"zh", a!":h", a!"H"] ++ simNames

/-- Units: a symbol other than a phoneme, a simple phoneme, a composite phoneme. -/
inductive Unit' : List Tok → Prop
  | g (s : Str) (h : nameB s = true) : Unit' [.g s]
  | eq : Unit' [.eq]
  | t (s : Str) (h : s ∈ trNames) : Unit' [.t s]
  | p (s : Str) (h : s ∈ pNames) : Unit' [.p s]
  | comp (u : List Tok) (h : u ∈ comps) : Unit' u

theorem cls_p {s : Str} (h : cls (.p s) ≠ .plus) (h' : cls (.p s) ≠ .bad) : s ∈ pNames := by
  rw [cls] at h h'
  rw [pNames, List.mem_append]
  cases hb : simNames.any (seq s) with
  | true => exact .inr (any_seq hb)
  | false =>
    left
    rw [hb] at h h'
    simp only [List.mem_cons, List.not_mem_nil, or_false]
    simp only [cond_eq_ite] at h h'
    repeat' split at h
    all_goals first
      | (next h1 => rw [seq_eq.1 h1]; simp; done)
      | exact absurd rfl h
      | skip
    all_goals simp_all

theorem unit_single {a : Tok} (h : cls a ≠ .plus) (h' : cls a ≠ .bad) : Unit' [a] := by
  cases a with
  | g s =>
    refine .g s ?_
    have := cls_plain h'
    exact nameB_iff.2 this
  | eq => exact .eq
  | t s =>
    refine .t s ?_
    rw [cls] at h'
    cases hb : trNames.any (seq s) with
    | true => exact any_seq hb
    | false => rw [hb] at h'; exact absurd rfl h'
  | p s => exact .p s (cls_p h h')

theorem cls_t {t : Tok} (h : cls t = .pt) : t = .p a!"t" := by
  cases t with
  | g s =>
    exfalso
    revert h
    rw [cls]
    cases seq s a!"a_i" <;> cases nameB s <;> (intro h; cases h)
  | eq => cases h
  | t s =>
    exfalso
    revert h
    rw [cls]
    generalize trNames.any (seq s) = b
    cases b <;> (intro h; cases h)
  | p s =>
    revert h
    rw [cls]
    generalize simNames.any (seq s) = b
    intro h
    cases h1 : seq s a!"t" with
    | true => rw [seq_eq.1 h1]
    | false =>
      exfalso
      rw [h1] at h
      revert h
      cases seq s a!"a" <;> cases seq s a!"i" <;> cases seq s a!"u" <;>
        cases seq s a!"d" <;> cases seq s a!"sh" <;> cases seq s a!"zh" <;> cases seq s a!"+" <;>
        cases seq s a!":h" <;> cases seq s a!"H" <;> cases b <;> (intro h; cases h)

theorem cls_d {t : Tok} (h : cls t = .pd) : t = .p a!"d" := by
  cases t with
  | g s =>
    exfalso
    revert h
    rw [cls]
    cases seq s a!"a_i" <;> cases nameB s <;> (intro h; cases h)
  | eq => cases h
  | t s =>
    exfalso
    revert h
    rw [cls]
    generalize trNames.any (seq s) = b
    cases b <;> (intro h; cases h)
  | p s =>
    revert h
    rw [cls]
    generalize simNames.any (seq s) = b
    intro h
    cases h1 : seq s a!"d" with
    | true => rw [seq_eq.1 h1]
    | false =>
      exfalso
      rw [h1] at h
      revert h
      cases seq s a!"a" <;> cases seq s a!"i" <;> cases seq s a!"u" <;>
        cases seq s a!"t" <;> cases seq s a!"sh" <;> cases seq s a!"zh" <;> cases seq s a!"+" <;>
        cases seq s a!":h" <;> cases seq s a!"H" <;> cases b <;> (intro h; cases h)

theorem cls_sh {t : Tok} (h : cls t = .sh) : t = .p a!"sh" := by
  cases t with
  | g s =>
    exfalso
    revert h
    rw [cls]
    cases seq s a!"a_i" <;> cases nameB s <;> (intro h; cases h)
  | eq => cases h
  | t s =>
    exfalso
    revert h
    rw [cls]
    generalize trNames.any (seq s) = b
    cases b <;> (intro h; cases h)
  | p s =>
    revert h
    rw [cls]
    generalize simNames.any (seq s) = b
    intro h
    cases h1 : seq s a!"sh" with
    | true => rw [seq_eq.1 h1]
    | false =>
      exfalso
      rw [h1] at h
      revert h
      cases seq s a!"a" <;> cases seq s a!"i" <;> cases seq s a!"u" <;>
        cases seq s a!"t" <;> cases seq s a!"d" <;> cases seq s a!"zh" <;> cases seq s a!"+" <;>
        cases seq s a!":h" <;> cases seq s a!"H" <;> cases b <;> (intro h; cases h)

theorem cls_zh {t : Tok} (h : cls t = .zh) : t = .p a!"zh" := by
  cases t with
  | g s =>
    exfalso
    revert h
    rw [cls]
    cases seq s a!"a_i" <;> cases nameB s <;> (intro h; cases h)
  | eq => cases h
  | t s =>
    exfalso
    revert h
    rw [cls]
    generalize trNames.any (seq s) = b
    cases b <;> (intro h; cases h)
  | p s =>
    revert h
    rw [cls]
    generalize simNames.any (seq s) = b
    intro h
    cases h1 : seq s a!"zh" with
    | true => rw [seq_eq.1 h1]
    | false =>
      exfalso
      rw [h1] at h
      revert h
      cases seq s a!"a" <;> cases seq s a!"i" <;> cases seq s a!"u" <;>
        cases seq s a!"t" <;> cases seq s a!"d" <;> cases seq s a!"sh" <;> cases seq s a!"+" <;>
        cases seq s a!":h" <;> cases seq s a!"H" <;> cases b <;> (intro h; cases h)

/-- Composite transitions. -/
def compB (x y : Cl) : Bool :=
  match x, y with
  | .a, .iu => true
  | .pt, .sh => true
  | .pd, .zh => true
  | _, _ => false

theorem comp_all : (allCfg.all fun cfg => allQ.all fun q => allCl.all fun x => allCl.all fun y =>
    decide (x = .plus) || !acc q || decide (δ cfg (δ cfg (δ cfg q x) .plus) y = .z) ||
      (compB x y && decide (δ cfg (δ cfg (δ cfg q x) .plus) y = .k))) = true := by decide +kernel
theorem plus_all : (allCfg.all fun cfg => allQ.all fun q => allCl.all fun x =>
    !acc (δ cfg (δ cfg q x) .plus)) = true := by decide +kernel
theorem k_plus : (allCfg.all fun cfg => decide (δ cfg .k .plus = .z)) = true := by decide +kernel
theorem acc_all : (allCfg.all fun cfg => allQ.all fun q => allCl.all fun x =>
    !acc q || decide (x = .plus) || decide (δ cfg q x = .z) || acc (δ cfg q x)) = true := by
  decide +kernel

theorem comp_mem {a b : Tok} (h : compB (cls a) (cls b) = true) : [a, .p a!"+", b] ∈ comps := by
  cases ha : cls a <;> cases hb : cls b <;> rw [ha, hb] at h <;> first | (cases h; done) | skip
  · have := cls_a ha; subst this
    rcases cls_iu hb with rfl | rfl <;> simp [comps, AIt, AUt]
  · have := cls_t ha; subst this
    have := cls_sh hb; subst this
    simp [comps, TSHt]
  · have := cls_d ha; subst this
    have := cls_zh hb; subst this
    simp [comps, DZHt]

/-- Accepted sequences split into units. -/
theorem run_units {cfg : Cfg} {ts : List Tok} {q : Q} (hq : acc q = true)
    (hp : ∀ v, ts ≠ .p a!"+" :: v) (h : acc (run cfg q ts) = true) :
    ∃ us : List (List Tok), us.flatten = ts ∧ ∀ u ∈ us, Unit' u := by
  induction hn : ts.length using Nat.strongRecOn generalizing ts q with
  | _ n ih =>
    match ts with
    | [] => exact ⟨[], rfl, by simp⟩
    | a :: ts =>
      have hna : cls a ≠ .plus := fun hc => by
        have := cls_plus hc
        subst this
        exact hp ts rfl
      have hz : δ cfg q (cls a) ≠ .z := fun hc => by
        rw [run, hc, run_z] at h; cases h
      have hbad : cls a ≠ .bad := fun hc => by rw [hc, δ_bad] at hz; exact hz rfl
      by_cases hpl : ∃ v, ts = .p a!"+" :: v
      · obtain ⟨v, rfl⟩ := hpl
        rw [run, run, show cls (.p a!"+") = .plus by decide +kernel] at h
        cases v with
        | nil =>
          have h1 := List.all_eq_true.1 (List.all_eq_true.1 (List.all_eq_true.1 plus_all cfg
            (mem_allCfg _)) q (mem_allQ _)) (cls a) (mem_allCl _)
          rw [run] at h
          rw [h] at h1
          cases h1
        | cons b v =>
          rw [run] at h
          have h1 := List.all_eq_true.1 (List.all_eq_true.1 (List.all_eq_true.1 (List.all_eq_true.1
            comp_all cfg (mem_allCfg _)) q (mem_allQ _)) (cls a) (mem_allCl _)) (cls b) (mem_allCl _)
          simp only [Bool.or_eq_true, decide_eq_true_eq, Bool.not_eq_true', Bool.and_eq_true] at h1
          rcases h1 with ((h1 | h1) | h1) | ⟨h1, h2⟩
          · exact absurd h1 hna
          · rw [hq] at h1; cases h1
          · rw [h1, run_z] at h; cases h
          · rw [h2] at h
            have hk : ∀ w, v ≠ .p a!"+" :: w := by
              rintro w rfl
              rw [run, show cls (.p a!"+") = .plus by decide +kernel,
                of_decide_eq_true (List.all_eq_true.1 k_plus cfg (mem_allCfg _)), run_z] at h
              cases h
            obtain ⟨us, h3, h4⟩ := ih v.length (by rw [← hn]; simp; omega) (by rfl) hk h rfl
            refine ⟨[a, .p a!"+", b] :: us, by simp [h3], ?_⟩
            intro u hu
            rw [List.mem_cons] at hu
            rcases hu with rfl | hu
            · exact .comp _ (comp_mem h1)
            · exact h4 u hu
      · rw [run] at h
        have h1 := List.all_eq_true.1 (List.all_eq_true.1 (List.all_eq_true.1 acc_all cfg
            (mem_allCfg _)) q (mem_allQ _)) (cls a) (mem_allCl _)
        simp only [Bool.or_eq_true, decide_eq_true_eq, Bool.not_eq_true'] at h1
        have hacc : acc (δ cfg q (cls a)) = true := by
          rcases h1 with ((h1 | h1) | h1) | h1
          · rw [hq] at h1; cases h1
          · exact absurd h1 hna
          · exact absurd h1 hz
          · exact h1
        obtain ⟨us, h3, h4⟩ := ih ts.length (by rw [← hn]; simp) hacc
          (fun v hv => hpl ⟨v, hv⟩) h rfl
        refine ⟨[a] :: us, by simp [h3], ?_⟩
        intro u hu
        rw [List.mem_cons] at hu
        rcases hu with rfl | hu
        · exact unit_single hna hbad
        · exact h4 u hu

theorem OK.units {cfg : Cfg} {ts : List Tok} (h : OK cfg ts) :
    ∃ us : List (List Tok), us.flatten = ts ∧ ∀ u ∈ us, Unit' u := by
  refine run_units (q := .c) rfl ?_ h.1
  rintro v rfl
  have := h.2
  rw [srun, show σ .s (.p a!"+") = .z from rfl, srun_z] at this
  cases this

end Nisaba.NT
