import Verif.Lemmas.NtChain
/-!
# Syllabic vowel signs in the grammars of Tamil and Malayalam

The automaton `vstep` follows the alignments of the vocalic signs: the right side is a consonant, the
vowel and maybe a length sign.  It is kept by the stages of the pronunciations.
-/
namespace Nisaba.NT
open G2p Rom

set_option maxRecDepth 100000

/-- Names of the vocalic signs. -/
def vocNames : List Str :=
  [a!"lv", a!"rv", a!"llv", a!"rrv", a!"lv_i", a!"rv_i", a!"llv_i", a!"rrv_i"]

theorem voc_eq : ((Brh.VOCALIC_SIGN ++ Brh.INDEPENDENT_VOCALIC).map Chr.gr) =
    vocNames.map encloseGrapheme := by decide +kernel

/-- States: outside of a vocalic sign, after the sign, after `=`, after the consonant, after the vowel,
after the length, dead. -/
inductive Vq
  | n | g | e | c | v | h | z
deriving DecidableEq

/-- The class of symbols that matter. -/
inductive Vc
  | voc | g | eq | syl | ec | rl | dur | p | t
deriving DecidableEq

def vcls : Tok → Vc
  | .g s => bif vocNames.any (seq s) then .voc else .g
  | .eq => .eq
  | .t _ => .t
  | .p s => bif seq s a!"S" then .syl else bif seq s a!"ec" then .ec
    else bif seq s a!"r" then .rl else bif seq s a!"l" then .rl
    else bif seq s a!":h" then .dur else .p

/-- Transitions; the phoneme `{S}` is allowed or not. -/
def vδ (b : Bool) : Vq → Vc → Vq
  | .n, .voc => .g
  | .n, .g => .n
  | .n, .eq => .n
  | .n, .syl => bif b then .n else .z
  | .n, .t => .z
  | .n, _ => .n
  | .g, .eq => .e
  | .e, .rl => .c
  | .c, .syl => bif b then .v else .z
  | .c, .ec => .v
  | .c, .t => .v
  | .v, .dur => .h
  | .v, .voc => .g
  | .v, .g => .n
  | .h, .voc => .g
  | .h, .g => .n
  | _, _ => .z

def vrun (b : Bool) : Vq → List Tok → Vq
  | q, [] => q
  | q, a :: ts => vrun b (vδ b q (vcls a)) ts

def vacc : Vq → Bool
  | .n => true
  | .v => true
  | .h => true
  | _ => false

/-- Simulation of states. -/
def vle (q q' : Vq) : Bool :=
  decide (q = .z) || (decide (q = q') || (decide (q = .h) && decide (q' = .v)))

def allVq : List Vq := [.n, .g, .e, .c, .v, .h, .z]
theorem mem_allVq (q : Vq) : q ∈ allVq := by cases q <;> decide

theorem vrun_append (b : Bool) (q : Vq) (xs ys : List Tok) :
    vrun b q (xs ++ ys) = vrun b (vrun b q xs) ys := by
  induction xs generalizing q with
  | nil => rfl
  | cons a xs ih => exact ih _

theorem vrun_z (b : Bool) (ts : List Tok) : vrun b .z ts = .z := by
  induction ts with
  | nil => rfl
  | cons a ts ih =>
    rw [vrun, show vδ b .z (vcls a) = .z by cases vcls a <;> rfl]
    exact ih

theorem vle_step {q q' : Vq} (b : Bool) (x : Vc) (h : vle q q' = true) :
    vle (vδ b q x) (vδ b q' x) = true := by
  cases b <;> cases q <;> cases q' <;> cases h <;> cases x <;> rfl

theorem vle_run {q q' : Vq} (b : Bool) (h : vle q q' = true) (ts : List Tok) :
    vle (vrun b q ts) (vrun b q' ts) = true := by
  induction ts generalizing q q' with
  | nil => exact h
  | cons a ts ih => exact ih (vle_step b _ h)

theorem vle_acc {q q' : Vq} (h : vle q q' = true) (ha : vacc q = true) : vacc q' = true := by
  cases q <;> cases q' <;> cases h <;> cases ha <;> rfl

/-- The language. -/
def VK (b : Bool) (ts : List Tok) : Prop := vacc (vrun b .n ts) = true

/-- Plain sequences of the language. -/
def PV (b : Bool) (ts : List Tok) : Prop := Plain ts ∧ VK b ts

/-! ## The check of rules -/

def vruleCheck' (b : Bool) (l r : Str) : Option (List Tok) → Option (List Tok) → Bool
  | some (a :: lt), some rt =>
    seq l (enc (a :: lt)) && seq r (enc rt) && plainB (a :: lt) && notT a && plainB rt &&
      allVq.all (fun q => vle (vrun b q (a :: lt)) (vrun b q rt))
  | _, _ => false

def vruleCheck (b : Bool) (rule : Str × Str) : Bool :=
  vruleCheck' b rule.1 rule.2 (toks rule.1) (toks rule.2)

/-- No projection. -/
def noproj : Tok → List Nat := fun _ => []

theorem flat_noproj (ts : List Tok) : ts.flatMap noproj = [] := by
  induction ts with
  | nil => rfl
  | cons a ts ih => rw [List.flatMap_cons, ih]; rfl

theorem vruleCheck_sound {b : Bool} {l r : Str} (h : vruleCheck b (l, r) = true) (rc : Str → Prop) :
    RuleOk noproj (PV b) rc l r := by
  unfold vruleCheck at h
  revert h
  generalize toks (l, r).1 = x
  generalize toks (l, r).2 = y
  intro h
  unfold vruleCheck' at h
  split at h
  · next a lt rt =>
    simp only [Bool.and_eq_true] at h
    obtain ⟨⟨⟨⟨⟨h1, h2⟩, h3⟩, h4⟩, h5⟩, h6⟩ := h
    refine ⟨a, lt, rt, seq_eq.1 h1, seq_eq.1 h2, plainB_iff.1 h3, ?_, ?_, ?_⟩
    · rintro s rfl; cases h4
    · rw [flat_noproj, flat_noproj]
    · rintro o q _ ⟨hp, hk⟩
      rw [plain_append, plain_append] at hp
      refine ⟨plain_append.2 ⟨plain_append.2 ⟨hp.1.1, plainB_iff.1 h5⟩, hp.2⟩, ?_⟩
      unfold VK at hk ⊢
      rw [vrun_append, vrun_append] at hk ⊢
      exact vle_acc (vle_run b (List.all_eq_true.1 h6 _ (mem_allVq _)) q) hk
  · cases h

/-- A stage that keeps the language. -/
def VCl (b : Bool) (R : Rel) : Prop := Closed noproj (PV b) (PV b) R

theorem vcl_of_check {b : Bool} {rs : List (Str × Str)} (h : rs.all (vruleCheck b) = true)
    (L R : Lang) : VCl b (cdrewrite (rules rs) L R) :=
  closed_cdrewrite (fun _ h => h.1) fun _ _ hm => vruleCheck_sound (List.all_eq_true.1 h _ hm) _

def VClL (b : Bool) (rs : List Rel) : Prop := ∀ R ∈ rs, VCl b R

theorem vclL_append {b : Bool} {rs ss : List Rel} (h : VClL b rs) (k : VClL b ss) :
    VClL b (rs ++ ss) := by
  intro R hR
  rw [List.mem_append] at hR
  rcases hR with hR | hR
  exacts [h R hR, k R hR]

theorem vclL_nil {b : Bool} : VClL b [] := by intro R hR; cases hR
theorem vclL_cons {b : Bool} {R : Rel} {rs : List Rel} (h : VCl b R) (k : VClL b rs) :
    VClL b (R :: rs) := by
  intro S hS
  rw [List.mem_cons] at hS
  rcases hS with rfl | hS
  exacts [h, k S hS]

theorem vcl_compose {b : Bool} {rs : List Rel} (h : VClL b rs) : VCl b (compose rs) := by
  induction rs with
  | nil => exact fun ts hp z hz => ⟨ts, hz.symm, hp, rfl⟩
  | cons r rs ih =>
    rw [compose_cons]
    rintro ts hp z ⟨y, hy, hz⟩
    obtain ⟨us, rfl, hq, h1⟩ := h r (by simp) ts hp y hy
    obtain ⟨vs, rfl, hs, h2⟩ := ih (fun R hR => h R (by simp [hR])) us hq z hz
    exact ⟨vs, rfl, hs, h2.trans h1⟩

/-- Both languages. -/
def OKV (cfg : Cfg) (b : Bool) (ts : List Tok) : Prop := OK cfg ts ∧ VK b ts

theorem stD_okv {cfg cfg' : Cfg} {b : Bool} {rs : List Rel} (h : StD (OK cfg) (OK cfg') (compose rs))
    (k : VClL b rs) : StD (OKV cfg b) (OKV cfg' b) (compose rs) := by
  refine ⟨⟨?_, fun ts hts => h.1.2 ts hts.1⟩, h.2⟩
  intro ts hts z hz
  obtain ⟨us, rfl, h1, h2⟩ := h.1.1 ts hts.1 z hz
  obtain ⟨vs, h3, h4, _⟩ := vcl_compose k ts ⟨hts.1.plain, hts.2⟩ _ hz
  obtain rfl := enc_inj h1.plain h4.1 h3
  exact ⟨us, rfl, ⟨h1, h4.2⟩, h2⟩

section
attribute [local irreducible] Brh.gr Psa.ph Ltn.tr

macro "nt_vstage" : tactic => `(tactic| (nt_norm; exact vcl_of_check (by decide +kernel) _ _))
macro "nt_vstages" : tactic => `(tactic|
  (repeat refine vclL_cons (by nt_vstage) ?_
   exact vclL_nil))

theorem v_VOCALIC_L : VClL false [rewrite (phL a!"SYL") (phL a!"EC")] := by nt_vstages
theorem v_SCHWA_A : VClL false SCHWA_A := by unfold SCHWA_A defaultSchwa; nt_vstages
theorem v_ANUSVARA_ASSIMILATION : VClL false ANUSVARA_ASSIMILATION := by
  unfold ANUSVARA_ASSIMILATION assimilation assignNasal; nt_vstages
theorem v_DEFAULT_ANUSVARA_LABIAL : VClL false DEFAULT_ANUSVARA_LABIAL := by
  unfold DEFAULT_ANUSVARA_LABIAL assignNasal; nt_vstages
theorem v_RR_TT : VClL false RR_TT := by unfold RR_TT; nt_vstages
theorem v_NR_NDR : VClL false NR_NDR := by unfold NR_NDR; nt_vstages
theorem v_JNY_TO_NY : VClL false JNY_TO_NY := by unfold JNY_TO_NY rewriteJny; nt_vstages
theorem v_TR_L : VClL false [rewrite (phL a!"SYL") (tr a!"S_II") (some Brh.lVOCALIC)] := by nt_vstages
end

section
attribute [local irreducible] Mul.ph Psa.ph
theorem v_Ml_VOICING : VClL false Ml.VOICING := by
  unfold Ml.VOICING
  refine vclL_cons ?_ vclL_nil
  nt_voice
  exact vcl_of_check (by decide +kernel) _ _
theorem v_Ml_POSTNASAL_TT : VClL false Ml.POSTNASAL_TT := by
  unfold Ml.POSTNASAL_TT
  refine vclL_cons ?_ vclL_nil
  nt_voice
  exact vcl_of_check (by decide +kernel) _ _
theorem v_Ta_VOICING : VClL false Ta.VOICING := by
  unfold Ta.VOICING
  refine vclL_cons ?_ vclL_nil
  nt_voice
  exact vcl_of_check (by decide +kernel) _ _
theorem v_Ta_C_WI : VClL false Ta.C_WI := by
  unfold Ta.C_WI
  refine vclL_cons ?_ vclL_nil
  nt_voice
  exact vcl_of_check (by decide +kernel) _ _
theorem v_Ta_NY_TSH : VClL false Ta.NY_TSH := by
  unfold Ta.NY_TSH
  refine vclL_cons ?_ vclL_nil
  nt_voice
  exact vcl_of_check (by decide +kernel) _ _
end

/-! ## Default pronunciations -/

theorem al_v_all : (Brh.CHAR.all fun c => [Vq.n, .v, .h].all fun q =>
    vacc (vrun true q (alTok (.g c.typ)))) = true := by decide +kernel

theorem al_vk {ts : List Tok} (h : Typ ts) : VK true (ts.flatMap alTok) := by
  have key : ∀ q, vacc q = true → vacc (vrun true q (ts.flatMap alTok)) = true := by
    induction ts with
    | nil => exact fun q hq => hq
    | cons a ts ih =>
      intro q hq
      obtain ⟨c, hc, rfl⟩ := h a (by simp)
      rw [List.flatMap_cons, vrun_append]
      refine ih (fun b hb => h b (by simp [hb])) _ ?_
      refine List.all_eq_true.1 (List.all_eq_true.1 al_v_all c hc) q ?_
      cases q <;> first | cases hq; done | simp
  exact key .n rfl

theorem al_okv {cfg : Cfg} (hc : cfg ∈ [M1, M1h, M1t]) {ts : List Tok} (h : Typ ts) :
    OKV cfg true (ts.flatMap alTok) := ⟨al_ok hc h, al_vk h⟩

/-! ## `VOCALIC_EC` -/

theorem vcls_syl {a : Tok} (h : vcls a = .syl) : a = .p a!"S" := by
  cases a with
  | g s => revert h; rw [vcls]; cases vocNames.any (seq s) <;> (intro h; cases h)
  | eq => cases h
  | t s => cases h
  | p s =>
    revert h
    rw [vcls]
    cases hs : seq s a!"S" with
    | true => intro _; rw [seq_eq.1 hs]
    | false =>
      cases seq s a!"ec" <;> cases seq s a!"r" <;> cases seq s a!"l" <;> cases seq s a!":h" <;>
        (intro h; cases h)

theorem vrun_noS {ts : List Tok} (h : Tok.p a!"S" ∉ ts) (q : Vq) : vrun false q ts = vrun true q ts := by
  induction ts generalizing q with
  | nil => rfl
  | cons a ts ih =>
    rw [vrun, vrun, ih fun hm => h (by simp [hm])]
    have : vδ false q (vcls a) = vδ true q (vcls a) := by
      have hn : vcls a ≠ .syl := fun hc => h (by rw [← vcls_syl hc]; simp)
      revert hn
      generalize vcls a = x
      intro hn
      cases x <;> first | exact absurd rfl hn | (cases q <;> rfl)
    rw [this]

theorem syl_strs : (seq (Psa.ph a!"SYL") (enc [.p a!"S"]) && seq (Psa.ph a!"EC") (enc [.p a!"ec"])) = true := by
  decide +kernel
theorem syl_check : ([M1, M1t].all fun cfg => seqCheck cfg false [.p a!"S"] [.p a!"ec"]) = true := by
  decide +kernel
theorem syl_vle : (allVq.all fun q => vle (vrun true q [.p a!"S"]) (vrun true q [.p a!"ec"])) = true := by
  decide +kernel

theorem st_SYL {cfg : Cfg} (hc : cfg ∈ [M1, M1t]) :
    StD (OKV cfg true) (OKV cfg false) (rewrite (ph a!"SYL") (ph a!"EC")) := by
  have hs := syl_strs
  rw [Bool.and_eq_true] at hs
  have e1 : ph a!"SYL" = str (enc [.p a!"S"]) := by rw [ph, seq_eq.1 hs.1]
  have e2 : ph a!"EC" = str (enc [.p a!"ec"]) := by rw [ph, seq_eq.1 hs.2]
  have hdet : Det (rewrite (ph a!"SYL") (ph a!"EC")) := by
    rw [e1, e2, rewrite, str_fin, str_fin, cross_fin]
    exact det_of_check (np := false) (by decide) _ _ (fun hb => by cases hb)
  refine ⟨?_, hdet⟩
  rw [e1, e2]
  refine (st_noF (P := OKV cfg true) (a := .p a!"S") (lt := []) (rt := [.p a!"ec"]) (fun _ h => h.1.plain) (plainB_iff.1 rfl) (by simp)
    (by decide) (by simp)
    rfl ?_).weaken (fun _ h => h) ?_
  · rintro o q ⟨h1, h2⟩
    refine ⟨seqCheck_sound (List.all_eq_true.1 syl_check cfg hc) o q (fun hb => by cases hb) h1, ?_⟩
    unfold VK at h2 ⊢
    rw [vrun_append, vrun_append] at h2 ⊢
    exact vle_acc (vle_run true (List.all_eq_true.1 syl_vle _ (mem_allVq _)) q) h2
  · rintro ts ⟨⟨h1, h2⟩, h3⟩
    refine ⟨h1, ?_⟩
    unfold VK at h2 ⊢
    rw [vrun_noS]
    · exact h2
    · intro hm
      obtain ⟨u, v, rfl⟩ := List.append_of_mem hm
      exact h3 u v (by simp)

/-! ## Pronunciations -/

theorem compose_one (R : Rel) : compose [R] = R := rfl

theorem vocEC_v {cfg : Cfg} (hc : cfg ∈ [M1, M1t]) :
    StD (OKV cfg true) (OKV cfg false) (compose VOCALIC_EC) := by
  have h1 : StD (OKV cfg true) (OKV cfg false) (compose [rewrite (ph a!"SYL") (ph a!"EC")]) := st_SYL hc
  have h2 : StsL CF [rewrite (phL a!"SYL") (phL a!"EC")] := fun R hR =>
    st_VOCALIC_EC R (by rw [VOCALIC_EC, vocalic]; rw [List.mem_singleton] at hR; simp [hR])
  have hc' : cfg ∈ CF := by
    simp only [List.mem_cons, List.not_mem_nil, or_false] at hc
    rcases hc with rfl | rfl
    exacts [cfM1, cfM1t]
  exact stD_append h1 (stD_okv (stD1 h2 hc') v_VOCALIC_L)

theorem ta_v : StD (OKV M1t true) (OKV M1t false) (compose Ta.txn) := by
  have : Ta.txn = VOCALIC_EC ++ ((SCHWA_A ++ ANUSVARA_ASSIMILATION ++ DEFAULT_ANUSVARA_LABIAL ++
    RR_TT ++ NR_NDR) ++ (Ta.NY_TSH ++ (Ta.VOICING ++ (Ta.C_WI ++ JNY_TO_NY)))) := by
    simp only [Ta.txn, List.append_assoc]
  rw [this]
  refine stD_append (vocEC_v (by simp)) (stD_okv (stD_append (stD1 (stsL_append (stsL_append
    (stsL_append (stsL_append st_SCHWA_A st_ANUSVARA_ASSIMILATION) st_DEFAULT_ANUSVARA_LABIAL) st_RR_TT)
    st_NR_NDR) cfM1t) (stD_append (stD1 Ta.st_NY_TSH (by simp)) (stD_append (stD1 Ta.st_VOICING
    (by simp)) (stD_append (stD1 Ta.st_C_WI (by simp)) (stD1 st_JNY_TO_NY cfM1t))))) ?_)
  exact vclL_append (vclL_append (vclL_append (vclL_append (vclL_append v_SCHWA_A
    v_ANUSVARA_ASSIMILATION) v_DEFAULT_ANUSVARA_LABIAL) v_RR_TT) v_NR_NDR) (vclL_append v_Ta_NY_TSH
    (vclL_append v_Ta_VOICING (vclL_append v_Ta_C_WI v_JNY_TO_NY)))

theorem ml_v : StD (OKV M1 true) (OKV M1 false) (compose mlRest) := by
  have : mlRest = VOCALIC_EC ++ ((SCHWA_A ++ ANUSVARA_ASSIMILATION ++ DEFAULT_ANUSVARA_LABIAL ++ RR_TT) ++
    (Ml.VOICING ++ (Ml.POSTNASAL_TT ++ JNY_TO_NY))) := by
    simp only [mlRest, List.append_assoc]
  rw [this]
  refine stD_append (vocEC_v (by simp)) (stD_okv (stD_append (stD1 (stsL_append (stsL_append
    (stsL_append st_SCHWA_A st_ANUSVARA_ASSIMILATION) st_DEFAULT_ANUSVARA_LABIAL) st_RR_TT) cfM1)
    (stD_append (stD1 Ml.st_VOICING (by simp)) (stD_append (stD1 Ml.st_POSTNASAL_TT (by simp))
      (stD1 st_JNY_TO_NY cfM1)))) ?_)
  exact vclL_append (vclL_append (vclL_append (vclL_append v_SCHWA_A v_ANUSVARA_ASSIMILATION)
    v_DEFAULT_ANUSVARA_LABIAL) v_RR_TT) (vclL_append v_Ml_VOICING (vclL_append v_Ml_POSTNASAL_TT v_JNY_TO_NY))

/-! ## `WF_VIRAMA_U` -/

/-- The places of the insertion. -/
theorem virama_place {o q : List Tok} (hk : OK M1 (o ++ q))
    (hl : (ctxOf (cat (align Brh.lSCH_CONS (Star Psa.lALL)) SKIP) (cat SKIP EOW)).left (enc o))
    (hr : (ctxOf (cat (align Brh.lSCH_CONS (Star Psa.lALL)) SKIP) (cat SKIP EOW)).right (enc q)) :
    q = [] ∨ ∃ s q', q = .g s :: q' := by
  have hpl := hk.plain
  rw [plain_append] at hpl
  have ho : srun .s o ≠ .g := by
    intro hg
    obtain ⟨o', s, rfl⟩ := srun_g hg
    obtain ⟨p, x, he, hx⟩ := hl
    obtain ⟨w, c, rfl, hc⟩ := ends1_cat0 (ends1_cat (ends1_cat0 ends1_eq
      (ends0_star ends0_all))) ends0_skip x hx
    have h1 := congrArg List.getLast? he
    rw [enc_append, enc_cons, enc_nil, enc1, encloseGrapheme, List.append_nil,
      ← List.append_assoc p, List.getLast?_concat,
      show bos :: (enc o' ++ LT :: (s ++ [GT])) = (bos :: (enc o' ++ LT :: s)) ++ [GT] by simp,
      List.getLast?_concat] at h1
    injection h1 with h1
    rw [← h1] at hc
    cases hc
  cases q with
  | nil => exact .inl rfl
  | cons a q =>
    right
    cases a with
    | g s => exact ⟨s, q, rfl⟩
    | eq =>
      exfalso
      have := hk.2
      rw [srun_append] at this
      generalize srun .s o = x at ho this
      cases x with
      | g => exact ho rfl
      | s => rw [srun, show σ .s .eq = .z from rfl, srun_z] at this; cases this
      | r => rw [srun, show σ .r .eq = .z from rfl, srun_z] at this; cases this
      | z => rw [srun_z] at this; cases this
    | p s =>
      exfalso
      rcases ctx_eow (enc_over hpl.2) hr with h | ⟨c, w, h, hc⟩
      · cases h
      · injection h with h _; rw [← h] at hc; exact absurd hc (by decide)
    | t s =>
      exfalso
      rcases ctx_eow (enc_over hpl.2) hr with h | ⟨c, w, h, hc⟩
      · cases h
      · injection h with h _; rw [← h] at hc; exact absurd hc (by decide)

theorem vcls_g (s : Str) : vcls (.g s) = .voc ∨ vcls (.g s) = .g := by
  rw [vcls]; cases vocNames.any (seq s) <;> simp

theorem vk_insert {o q : List Tok} (hq : q = [] ∨ ∃ s q', q = .g s :: q') (h : VK true (o ++ q)) :
    VK true (o ++ Ut ++ q) := by
  unfold VK at h ⊢
  rw [vrun_append] at h
  rw [vrun_append, vrun_append]
  have hacc : vacc (vrun true .n o) = true := by
    rcases hq with rfl | ⟨s, q', rfl⟩
    · exact h
    · generalize vrun true .n o = x at h ⊢
      rw [vrun] at h
      cases x
      case n => rfl
      case v => rfl
      case h => rfl
      all_goals
        exfalso
        rcases vcls_g s with hs | hs <;> rw [hs] at h <;> (change vacc (vrun true .z q') = true at h) <;>
          rw [vrun_z] at h <;> cases h
  have hU : vrun true (vrun true .n o) Ut = .n := by
    generalize vrun true .n o = x at hacc
    cases x <;> first | cases hacc; done | rfl
  rw [hU]
  rcases hq with rfl | ⟨s, q', rfl⟩
  · rfl
  · rw [vrun] at h ⊢
    have : vδ true .n (vcls (.g s)) = vδ true (vrun true .n o) (vcls (.g s)) := by
      generalize vrun true .n o = x at hacc
      rcases vcls_g s with hs | hs <;> rw [hs] <;> cases x <;> first | cases hacc; done | rfl
    rw [this]
    exact h

theorem v_WF_VIRAMA_U : ClosedE UExt (OKV M1 true) (OKV M1 true) (compose WF_VIRAMA_U) := by
  intro ts hts z hz
  obtain ⟨us, rfl, h1, h2⟩ := st_WF_VIRAMA_U.1 ts hts.1 z hz
  rw [WF_VIRAMA_U_eq] at hz
  obtain ⟨vs, h3, h4⟩ := cdr_ins_closed (P := OKV M1 true) (fun _ h => h.1.plain) (by
      intro rest ho hr
      rcases ctx_eow ho hr with h | ⟨c, w, h, hc⟩
      · exact .inl h
      · exact .inr ⟨c, w, h, by rcases hc with rfl | rfl <;> rfl⟩)
    (by
      rintro o q hl hr ⟨hk, hv⟩
      have hq := virama_place hk hl hr
      refine ⟨?_, vk_insert hq hv⟩
      refine ok_insert ?_ hq hk
      intro hg
      obtain ⟨o', s, rfl⟩ := srun_g hg
      obtain ⟨p, x, he, hx⟩ := hl
      obtain ⟨w, c, rfl, hc⟩ := ends1_cat0 (ends1_cat (ends1_cat0 ends1_eq
        (ends0_star ends0_all))) ends0_skip x hx
      have h1 := congrArg List.getLast? he
      rw [enc_append, enc_cons, enc_nil, enc1, encloseGrapheme, List.append_nil,
        ← List.append_assoc p, List.getLast?_concat,
        show bos :: (enc o' ++ LT :: (s ++ [GT])) = (bos :: (enc o' ++ LT :: s)) ++ [GT] by simp,
        List.getLast?_concat] at h1
      injection h1 with h1
      rw [← h1] at hc
      cases hc) hz.2.2 ts rfl hts
  obtain rfl := enc_inj h1.plain h4.1.plain h3
  exact ⟨us, rfl, h4, h2⟩

theorem ml_blkv {ss : List Rel} {good : Str → Prop} (k : Blk (OKV M1 false) ss good) :
    Blk (OKV M1 true) (Ml.txn ++ ss) good := by
  rw [ml_eq, List.append_assoc]
  exact Blk.afterE v_WF_VIRAMA_U (fun ts h => st_WF_VIRAMA_U.2.1 ts h.1) st_WF_VIRAMA_U.2.2 (Blk.after ml_v k)

end Nisaba.NT
