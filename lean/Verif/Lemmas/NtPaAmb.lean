import Verif.Lemmas.NtPa
/-!
# Punjabi: two pronunciations of an affricate after an addak
-/
namespace Nisaba.NT
open G2p Rom

set_option maxRecDepth 100000

theorem sil_left {out : Str} (h : (ctxOf (cat (ph a!"SIL") SKIP) (str [])).left out) :
    a!"{sil}" <:+ out ∨ a!"{sil}=" <:+: out ∨ out.getLast? = some 61 := by
  obtain ⟨a, b, he, x, y, rfl, hx, hy⟩ := h
  rw [ph, sil_eq] at hx
  rw [show x = enc [.p a!"sil"] from hx] at he
  cases a with
  | nil =>
    injection he with h1 _
    cases h1
  | cons c a =>
    injection he with _ h2
    subst h2
    rcases hy with (⟨u, v, rfl, _, hv⟩ | rfl) | (⟨u, v, rfl, hu, _⟩ | rfl)
    · rw [show v = [61] from hv]
      exact .inr (.inr (by simp))
    · exact .inl ⟨a, by simp [enc, enc1, enclosePhoneme, CURLYL, CURLYR]⟩
    · rw [show u = [61] from hu]
      exact .inr (.inl ⟨a, v, by simp [enc, enc1, enclosePhoneme, CURLYL, CURLYR]⟩)
    · exact .inl ⟨a, by simp [enc, enc1, enclosePhoneme, CURLYL, CURLYR]⟩

/-- The alignment of an addak and an affricate. -/
def addC : Str := a!"<add>={sil}<c>={t}{+}{sh}"
/-- Its two pronunciations. -/
def addC1 : Str := a!"<add>={sil}<c>={t}{t}{+}{sh}"
def addC2 : Str := a!"<add>={sil}<c>={t}{+}{sh}{t}{+}{sh}"

/-- No left side at the start of a string. -/
def noStart (x : Str) : Bool := addakRules.all fun r => !pre r.1 x

theorem copy_run {C : Cx Nat} {fin : Str} (s : Str) {out rest : Str}
    (h : (sufs s).all (fun u => noStart (u ++ rest)) = true)
    (k : Cdr (rules addakRules) C (out ++ s) rest fin) : Cdr (rules addakRules) C out (s ++ rest) fin := by
  induction s generalizing out with
  | nil => simpa using k
  | cons c s ih =>
    rw [sufs, List.all_cons, Bool.and_eq_true] at h
    refine .copy ?_ (ih h.2 (by simpa using k))
    intro l r rest' hm he _ _
    have := List.all_eq_true.1 h.1 _ hm
    rw [show (l, r).1 = l from rfl, pre_iff.2 ⟨rest', by rw [← he]; rfl⟩] at this
    cases this

theorem addak_done {C : Cx Nat} (out : Str) : Cdr (rules addakRules) C out [] out := by
  refine .done fun r hm _ _ => ?_
  have := List.all_eq_true.1 addak_ne _ hm
  cases this

theorem rule_mem {rs : List (Str × Str)} {r : Str × Str} (h : (rs.any fun q => seq q.1 r.1 && seq q.2 r.2) = true) :
    r ∈ rs := by
  obtain ⟨q, hq, he⟩ := List.any_eq_true.1 h
  rw [Bool.and_eq_true] at he
  rwa [show r = q from Prod.ext (seq_eq.1 he.1).symm (seq_eq.1 he.2).symm]

theorem addak_left_ok : (ctxOf (cat (ph a!"SIL") SKIP) (str [])).left a!"<add>={sil}<c>=" := by
  refine ⟨bos :: a!"<add>=", a!"{sil}<c>=", rfl, a!"{sil}", a!"<c>=", rfl, ?_, ?_⟩
  · rw [ph, sil_eq]; rfl
  · refine .inl (.inl ⟨a!"<c>", [61], rfl, ?_, rfl⟩)
    exact .cons (u := a!"<c>") (v := []) ⟨[60], a!"c>", rfl, rfl, a!"c", a!">", rfl,
      (fun c hc => by simp at hc; subst hc; unfold symChar; decide), rfl⟩ .nil

theorem addak_amb2 : compose ADDAK addC addC2 := by
  rw [addak_eq]
  refine ⟨overB_iff (by decide), overB_iff (by decide), ?_⟩
  refine copy_run (out := []) a!"<add>={sil}<c>=" (rest := a!"{t}{+}{sh}") (by decide +kernel) ?_
  exact .apply (l := a!"{t}{+}{sh}") (r := a!"{t}{+}{sh}{t}{+}{sh}") (rest := []) (rule_mem (by decide +kernel))
    (by decide) addak_left_ok (ctx_nil_right _ _) (addak_done _)

theorem addak_amb1 : compose ADDAK addC addC1 := by
  rw [addak_eq]
  refine ⟨overB_iff (by decide), overB_iff (by decide), ?_⟩
  refine copy_run (out := []) a!"<add>={sil}<c>=" (rest := a!"{t}{+}{sh}") (by decide +kernel) ?_
  refine .apply (l := a!"{t}") (r := a!"{t}{t}") (rest := a!"{+}{sh}") (rule_mem (by decide +kernel))
    (by decide) addak_left_ok (ctx_nil_right _ _) ?_
  refine copy_run (out := a!"<add>={sil}<c>={t}{t}") a!"{+}" (rest := a!"{sh}") (by decide +kernel) ?_
  refine .copy (rest := a!"sh}") ?_ ?_
  · intro l r rest' _ _ hl _
    rcases sil_left hl with h | h | h
    · revert h; decide
    · revert h; decide
    · revert h; decide
  exact copy_run (out := a!"<add>={sil}<c>={t}{t}{+}{") a!"sh}" (rest := []) (by decide +kernel) (addak_done _)

section
attribute [local irreducible] Brh.gr Psa.ph Ltn.tr

macro "nt_id" : tactic => `(tactic| (nt_norm; exact idB_iff (by decide +kernel) _ _))
macro "nt_ids" : tactic => `(tactic|
  (repeat refine idL_cons (by nt_id) ?_
   exact idL_nil))

/-- The strings that no rule after `ADDAK` changes. -/
def Still (x : Str) : Prop := x = addC1 ∨ x = addC2

theorem id_AI {x : Str} (h : Still x) : IdL x AI_TO_EH_LONG := by
  rcases h with rfl | rfl <;> (unfold AI_TO_EH_LONG; nt_ids)
theorem id_AU {x : Str} (h : Still x) : IdL x AU_TO_OH_LONG := by
  rcases h with rfl | rfl <;> (unfold AU_TO_OH_LONG; nt_ids)
theorem id_A {x : Str} (h : Still x) : IdL x A_TO_EC := by
  rcases h with rfl | rfl <;> (unfold A_TO_EC; nt_ids)
theorem id_VOC {x : Str} (h : Still x) : IdL x VOCALIC_I := by
  rcases h with rfl | rfl <;> (unfold VOCALIC_I vocalic; nt_ids)
theorem id_ANS {x : Str} (h : Still x) : IdL x ANUSVARA_ASSIMILATION := by
  rcases h with rfl | rfl <;> (unfold ANUSVARA_ASSIMILATION assimilation assignNasal; nt_ids)
theorem id_TIP {x : Str} (h : Still x) : IdL x TIPPI_ASSIMILATION := by
  rcases h with rfl | rfl <;> (unfold TIPPI_ASSIMILATION assimilation assignNasal; nt_ids)
theorem id_AUM {x : Str} (h : Still x) : IdL x AUM_AON := by
  rcases h with rfl | rfl <;> (unfold AUM_AON; nt_ids)
theorem id_OAM {x : Str} (h : Still x) : IdL x OAM_AON := by
  rcases h with rfl | rfl <;> (unfold OAM_AON; nt_ids)
theorem id_ANSVA {x : Str} (h : Still x) : IdL x ANSVA_AON := by
  rcases h with rfl | rfl <;> (unfold ANSVA_AON; nt_ids)
theorem id_SCHWA {x : Str} (h : Still x) (o c : Lang) : IdL x (processSchwa o c) := by
  rcases h with rfl | rfl <;> (unfold processSchwa schwaEow schwaBetween vocalSchwa silentSchwa; nt_ids)
theorem id_EC {x : Str} (h : Still x) : IdL x SCHWA_EC := by
  rcases h with rfl | rfl <;> (unfold SCHWA_EC defaultSchwa; nt_ids)
theorem id_PH {x : Str} (h : Still x) : IdL x PH_F := by
  rcases h with rfl | rfl <;> (unfold PH_F; nt_ids)
theorem id_ASP {x : Str} (h : Still x) : IdL x REMOVE_ASP_FROM_GEMINATE := by
  rcases h with rfl | rfl <;> (unfold REMOVE_ASP_FROM_GEMINATE; nt_ids)
theorem id_RD {x : Str} (h : Still x) : IdL x RD_R := by
  rcases h with rfl | rfl <;> (unfold RD_R; nt_ids)
theorem id_SIB {x : Str} (h : Still x) : IdL x SIBV_TO_SIBW := by
  rcases h with rfl | rfl <;> (unfold SIBV_TO_SIBW; nt_ids)
theorem id_DI {x : Str} (h : Still x) : IdL x DIPHTHONG_GR := by
  rcases h with rfl | rfl <;> (unfold DIPHTHONG_GR; nt_ids)
theorem id_NLA {x : Str} (h : Still x) : IdL x NON_LABIAL_ANUSVARA := by
  rcases h with rfl | rfl <;> (unfold NON_LABIAL_ANUSVARA; nt_ids)
theorem id_RDH {x : Str} (h : Still x) : IdL x RDH_DH := by
  rcases h with rfl | rfl <;> (unfold RDH_DH; nt_ids)
theorem id_IGN {x : Str} (h : Still x) : IdL x IGNORE_LONG := by
  rcases h with rfl | rfl <;> (unfold IGNORE_LONG; nt_ids)
theorem id_LONG {x : Str} (h : Still x) : IdL x TRANSLIT_LONG := by
  have h1 : (Psa.PHONEMES.all fun p => idB [(p.ph ++ Psa.ph a!"DURH", Ltn.doubleSubstringTr p.psa)] addC1 &&
      idB [(p.ph ++ Psa.ph a!"DURH", Ltn.doubleSubstringTr p.psa)] addC2) = true := by decide +kernel
  intro R hR
  rw [TRANSLIT_LONG, List.mem_map] at hR
  obtain ⟨p, hp, rfl⟩ := hR
  rw [rewrite, str_fin, str_fin, cross_fin]
  have h2 := List.all_eq_true.1 h1 p hp
  rw [Bool.and_eq_true] at h2
  rcases h with rfl | rfl
  exacts [idB_iff h2.1 _ _, idB_iff h2.2 _ _]
end

theorem id_paRest {x : Str} (h : Still x) : compose paRest x x := by
  refine IdL.compose ?_
  unfold paRest PROCESS_SCHWA
  exact idL_append (idL_append (id_AI h) (id_AU h)) (idL_append (id_A h) (idL_append (idL_append (idL_append
    (idL_append (idL_append (idL_append (idL_append (idL_append (idL_append (id_VOC h) (id_ANS h)) (id_TIP h))
    (id_AUM h)) (id_OAM h)) (id_ANSVA h)) (id_SCHWA h _ _)) (id_EC h)) (id_PH h)) (id_ASP h)))

/-- Both strings are pronunciations of the alignment. -/
theorem pa_amb {x : Str} (h : Still x) : compose Pa.txn addC x := by
  rw [pa_eq]
  refine (compose_append ..).2 ⟨x, ?_, id_paRest h⟩
  rcases h with rfl | rfl
  exacts [addak_amb1, addak_amb2]

theorem id_COMMON {x : Str} (h : Still x) : IdL x TXN_TO_PSA_COMMON :=
  idL_append (idL_append (id_DI h) (id_NLA h)) (id_RDH h)

end Nisaba.NT
