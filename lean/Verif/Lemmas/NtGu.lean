import Verif.Lemmas.NtFail
/-!
# Gujarati: texts with a diphthong
-/
namespace Nisaba.NT
open G2p Rom

set_option maxRecDepth 100000
attribute [local irreducible] Brh.gr Psa.ph Ltn.tr

/-- The schwa in front of the sign of composites. -/
def ecPlus : Str := a!"{ec}{+}"

macro "nt_keep" : tactic => `(tactic| (nt_norm; exact keeps_rules (by decide +kernel) _ _))
macro "nt_keeps" : tactic => `(tactic|
  (repeat refine keepsL_cons (by nt_keep) ?_
   exact keepsL_nil))

theorem gu_first {x y : Str} (h : rewrite (ph a!"A") (ph a!"EC") none none x y) (hx : a!"{a}{+}" <:+: x) :
    ecPlus <:+: y := by
  revert h
  nt_norm
  intro h
  have e1 : prods [Psa.ph a!"A"] [Psa.ph a!"EC"] = [(a!"{a}", a!"{ec}")] := by decide +kernel
  rw [e1, ← str_fin] at h
  obtain ⟨u, v, he⟩ := hx
  obtain ⟨out, ho⟩ := cdr_fire (l := a!"{a}") (w := a!"{+}" ++ v) (by simp) u (by rw [← he]; simp) (by decide) h
  refine cdr_inv (P := fun s => ecPlus <:+: s) ?_ ho ⟨out, v, by simp [ecPlus]⟩
  intro l r u v hm hp
  rw [rules, List.mem_singleton] at hm
  injection hm with e1 e2
  subst e1
  exact noOv_replace (by simp) (noOvB_iff (by decide)) hp

theorem kp_A : KeepsL ecPlus [rewrite (phL a!"EC") (phL a!"A")] := by nt_keeps

theorem kp_VOCALIC_U : KeepsL ecPlus VOCALIC_U := by unfold VOCALIC_U vocalic; nt_keeps
theorem kp_ANUSVARA_ASSIMILATION : KeepsL ecPlus ANUSVARA_ASSIMILATION := by unfold ANUSVARA_ASSIMILATION assimilation assignNasal; nt_keeps
theorem kp_SCHWA_EC : KeepsL ecPlus SCHWA_EC := by unfold SCHWA_EC defaultSchwa; nt_keeps
theorem kp_DEFAULT_ANUSVARA_DENTAL : KeepsL ecPlus DEFAULT_ANUSVARA_DENTAL := by unfold DEFAULT_ANUSVARA_DENTAL assignNasal; nt_keeps
theorem kp_JNY_TO_DNY : KeepsL ecPlus JNY_TO_DNY := by unfold JNY_TO_DNY rewriteJny; nt_keeps
theorem kp_PH_F : KeepsL ecPlus PH_F := by unfold PH_F; nt_keeps
theorem kp_DIPHTHONG_GR : KeepsL ecPlus DIPHTHONG_GR := by unfold DIPHTHONG_GR; nt_keeps
theorem kp_NON_LABIAL_ANUSVARA : KeepsL ecPlus NON_LABIAL_ANUSVARA := by unfold NON_LABIAL_ANUSVARA; nt_keeps
theorem kp_RDH_DH : KeepsL ecPlus RDH_DH := by unfold RDH_DH; nt_keeps
theorem kp_IGNORE_LONG : KeepsL ecPlus IGNORE_LONG := by unfold IGNORE_LONG; nt_keeps
theorem kp_SIBV_TO_SIBW : KeepsL ecPlus SIBV_TO_SIBW := by unfold SIBV_TO_SIBW; nt_keeps
theorem kp_OO_AO_BEFORE_ANUSVARA : KeepsL ecPlus OO_AO_BEFORE_ANUSVARA := by unfold OO_AO_BEFORE_ANUSVARA; nt_keeps
theorem kp_GAAV_GAON : KeepsL ecPlus GAAV_GAON := by unfold GAAV_GAON; nt_keeps
theorem kp_processSchwa (o c : Lang) : KeepsL ecPlus (processSchwa o c) := by
  unfold processSchwa schwaEow schwaBetween vocalSchwa silentSchwa; nt_keeps
theorem kp_TRANSLIT_LONG : KeepsL ecPlus TRANSLIT_LONG := by
  have h : (Psa.PHONEMES.all fun p => keepFB ecPlus
      [(p.ph ++ Psa.ph a!"DURH", Ltn.doubleSubstringTr p.psa)]) = true := by decide +kernel
  intro R hR
  rw [TRANSLIT_LONG, List.mem_map] at hR
  obtain ⟨p, hp, rfl⟩ := hR
  rw [rewrite, str_fin, str_fin, cross_fin]
  exact keeps_rules (List.all_eq_true.1 h p hp) _ _

/-- The stages of the pronunciation after the first. -/
theorem kp_gu : KeepsL ecPlus ([rewrite (phL a!"EC") (phL a!"A")] ++ VOCALIC_U ++ ANUSVARA_ASSIMILATION ++
    PROCESS_SCHWA ++ SCHWA_EC ++ DEFAULT_ANUSVARA_DENTAL ++ JNY_TO_DNY ++ PH_F) :=
  keepsL_append (keepsL_append (keepsL_append (keepsL_append (keepsL_append (keepsL_append (keepsL_append
    kp_A kp_VOCALIC_U) kp_ANUSVARA_ASSIMILATION) (kp_processSchwa _ _)) kp_SCHWA_EC)
    kp_DEFAULT_ANUSVARA_DENTAL) kp_JNY_TO_DNY) kp_PH_F

theorem gu_txn_eq : Gu.txn = rewrite (ph a!"A") (ph a!"EC") none none ::
    ([rewrite (phL a!"EC") (phL a!"A")] ++ VOCALIC_U ++ ANUSVARA_ASSIMILATION ++
    PROCESS_SCHWA ++ SCHWA_EC ++ DEFAULT_ANUSVARA_DENTAL ++ JNY_TO_DNY ++ PH_F) := rfl

/-- The pronunciation of a diphthong has the schwa in front of the sign of composites. -/
theorem gu_txn_di {x y : Str} (h : compose Gu.txn x y) (hx : a!"{a}{+}" <:+: x) : ecPlus <:+: y := by
  rw [gu_txn_eq, compose_cons] at h
  obtain ⟨z, h1, h2⟩ := h
  exact kp_gu.compose _ _ h2 (gu_first h1 hx)

/-- The same without the schwa. -/
def trPlus : Str := a!"`{+}"

theorem psa_plus : (psaRules.all fun r => !r.1.isEmpty && (noOvB r.1 trPlus && (noOvB r.1 ecPlus ||
    (seq r.1 a!"{ec}" && startB r.1 ecPlus && seq r.2 a!"`a`")))) = true := by decide +kernel

theorem translit_keeps {x y : Str} (h : compose TRANSLIT_BY_PSA x y) (hx : ecPlus <:+: x) : 123 ∈ y := by
  have e : compose TRANSLIT_BY_PSA = cdrewrite (rules psaRules) (str []) (str []) := by
    rw [TRANSLIT_BY_PSA, psaRules]
    change rewriteLs _ none none = _
    rw [rewriteLs, rewriteOp, List.map_map, ← unionR_map]
    rfl
  rw [e] at h
  have key : ecPlus <:+: y ∨ trPlus <:+: y := by
    refine cdr_inv (P := fun s => ecPlus <:+: s ∨ trPlus <:+: s) ?_ h.2.2 (.inl (by simpa using hx))
    intro l r u v hm hp
    have h1 := List.all_eq_true.1 psa_plus _ hm
    rw [Bool.and_eq_true, Bool.and_eq_true, Bool.or_eq_true] at h1
    obtain ⟨h0, h2, h3⟩ := h1
    have hl : l ≠ [] := by rintro rfl; simp at h0
    rcases hp with hp | hp
    · rcases h3 with h3 | h3
      · exact .inl (noOv_replace hl (noOvB_iff h3) hp)
      · rw [Bool.and_eq_true, Bool.and_eq_true] at h3
        obtain ⟨⟨h4, h5⟩, h6⟩ := h3
        obtain ⟨a, b, he⟩ := hp
        rcases start_split h5 he.symm with ⟨p, q, k⟩ | ⟨p, q, k⟩ | k
        · exact .inl ⟨p, q ++ r ++ v, by rw [← k]; simp⟩
        · exact .inl ⟨u ++ r ++ p, q, by rw [← k]; simp⟩
        · refine .inr ⟨u ++ a!"`a", b, ?_⟩
          have e4 : l = _ := seq_eq.1 h4
          have e6 : r = _ := seq_eq.1 h6
          clear h4 h6
          subst e4; subst e6
          have : v = a!"{+}" ++ b := by
            have e : ecPlus ++ b = a!"{ec}" ++ (a!"{+}" ++ b) := rfl
            rw [e] at k
            exact List.append_cancel_left k
          rw [this]
          simp [trPlus]
    · exact .inr (noOv_replace hl (noOvB_iff h2) hp)
  rcases key with ⟨a, b, rfl⟩ | ⟨a, b, rfl⟩ <;> simp [ecPlus, trPlus]

theorem ltn_no_brace : (Ltn.CHARS.all fun e => e.tr.all fun c => !Nat.beq c 123) = true := by
  decide +kernel

theorem print_brace {m : Mode} {x y : Str} (h : compose (printOnlyLtn m) x y) : 123 ∉ x := by
  intro hx
  rw [printOnlyLtn, printOnlyGlyph, compose_cons] at h
  obtain ⟨z, h1, h2⟩ := h
  have hz := ext_keeps h1 hx
  change StarR _ z y at h2
  clear h1 hx
  induction h2 with
  | nil => cases hz
  | cons hr k ih =>
    rw [List.mem_append] at hz
    rcases hz with hz | hz
    · obtain ⟨R, hR, hx⟩ := hr
      obtain ⟨c, hc, rfl⟩ := List.mem_map.1 hR
      rw [hx.1] at hz
      have := List.all_eq_true.1 (List.all_eq_true.1 ltn_no_brace c hc) _ hz
      simp at this
    · exact ih hz

/-- A grammar that keeps the factor up to the translits and prints has no output. -/
theorem no_print {rs ss : List Rel} {m : Mode} (h : KeepsL ecPlus rs) {x y : Str}
    (hs : ∀ x y, compose ss x y → 123 ∈ x → 123 ∈ y)
    (hc : compose (rs ++ (TRANSLIT_BY_PSA ++ (ss ++ printOnlyLtn m))) x y) : ¬ ecPlus <:+: x := by
  intro hx
  obtain ⟨z, h1, h2⟩ := (compose_append ..).1 hc
  obtain ⟨w, h3, h4⟩ := (compose_append ..).1 h2
  obtain ⟨v, h5, h6⟩ := (compose_append ..).1 h4
  exact print_brace h6 (hs _ _ h5 (translit_keeps h3 (h.compose _ _ h1 hx)))

macro "nt_keep1" : tactic => `(tactic|
  (repeat refine keepsL_cons (by nt_norm; exact keeps_rules (by decide +kernel) _ _) ?_
   exact keepsL_nil))

theorem kb_CC_TO_CCH : KeepsL [123] CC_TO_CCH := by unfold CC_TO_CCH; nt_keep1
theorem kb_CCH_TO_CHH : KeepsL [123] CCH_TO_CHH := by unfold CCH_TO_CHH; nt_keep1
theorem kb_S_SHSH_TO_SSH : KeepsL [123] S_SHSH_TO_SSH := by unfold S_SHSH_TO_SSH; nt_keep1

theorem infix_one {c : Nat} {x : Str} : [c] <:+: x ↔ c ∈ x := by
  constructor
  · rintro ⟨a, b, rfl⟩; simp
  · intro h
    obtain ⟨a, b, rfl⟩ := List.append_of_mem h
    exact ⟨a, b, by simp⟩

theorem kp_COMMON : KeepsL ecPlus TXN_TO_PSA_COMMON :=
  keepsL_append (keepsL_append kp_DIPHTHONG_GR kp_NON_LABIAL_ANUSVARA) kp_RDH_DH

/-- `TXN_TO_PSAF` has no output. -/
theorem psaf_di {m : Mode} {x y : Str} (h : compose (TXN_TO_PSAF m) x y) : ¬ ecPlus <:+: x := by
  have e : TXN_TO_PSAF m = (TXN_TO_PSA_COMMON ++ TRANSLIT_LONG) ++ (TRANSLIT_BY_PSA ++ ([] ++ printOnlyLtn m)) := by
    rw [TXN_TO_PSAF, List.append_assoc, List.nil_append]
  rw [e] at h
  exact no_print (keepsL_append kp_COMMON kp_TRANSLIT_LONG)
    (ss := []) (fun x y hxy hx => (show x = y from hxy) ▸ hx) h

theorem psac_di {m : Mode} {x y : Str} (h : compose (TXN_TO_PSAC m) x y) : ¬ ecPlus <:+: x := by
  have e : TXN_TO_PSAC m = ((TXN_TO_PSA_COMMON ++ IGNORE_LONG) ++
      (TRANSLIT_BY_PSA ++ ([] ++ printOnlyLtn m))) ++ REMOVE_REPEATED_LTN := by
    rw [TXN_TO_PSAC, List.nil_append, ← List.append_assoc]
  rw [e] at h
  obtain ⟨z, h, _⟩ := (compose_append ..).1 h
  exact no_print (keepsL_append kp_COMMON kp_IGNORE_LONG)
    (ss := []) (fun x y hxy hx => (show x = y from hxy) ▸ hx) h

theorem gaon_di {m : Mode} {x y : Str} (h : compose (gaonNat m) x y) : ¬ ecPlus <:+: x := by
  have e : gaonNat m = (SIBV_TO_SIBW ++ OO_AO_BEFORE_ANUSVARA ++ GAAV_GAON ++ TXN_TO_PSA_COMMON ++
      IGNORE_LONG) ++ (TRANSLIT_BY_PSA ++ ((CC_TO_CCH ++ CCH_TO_CHH ++ S_SHSH_TO_SSH) ++ printOnlyLtn m)) := by
    rw [gaonNat]
    simp only [List.append_assoc]
  rw [e] at h
  refine no_print (keepsL_append (keepsL_append (keepsL_append (keepsL_append kp_SIBV_TO_SIBW
    kp_OO_AO_BEFORE_ANUSVARA) kp_GAAV_GAON) kp_COMMON) kp_IGNORE_LONG) ?_ h
  intro x y hxy hx
  rw [← infix_one] at hx ⊢
  exact (keepsL_append (keepsL_append kb_CC_TO_CCH kb_CCH_TO_CHH) kb_S_SHSH_TO_SSH).compose _ _ hxy hx

/-! ## The transcription -/

/-- Keys of the transcription. -/
def ipaKeys : List Str := (Mul.PHONEMES ++ [Mod.DURH]).map Phn.ph

theorem ipaKeys_ok : (ipaKeys.all fun k => !k.isEmpty && (freeB [k] &&
    (sufs k).all fun t => !compat t ecPlus || seq t a!"{ec}")) = true := by decide +kernel

theorem keys_ec (ks : List Str) (h : ∀ k ∈ ks, k ∈ ipaKeys) : ¬ ecPlus <:+: ks.flatten := by
  induction ks with
  | nil => intro hi; have := List.infix_nil.1 hi; cases this
  | cons k ks ih =>
    rintro ⟨a, b, he⟩
    have hk := List.all_eq_true.1 ipaKeys_ok k (h k (by simp))
    rw [Bool.and_eq_true, Bool.and_eq_true] at hk
    rw [List.flatten_cons, List.append_assoc] at he
    rcases List.append_eq_append_iff.1 he with ⟨t, h1, h2⟩ | ⟨c, h1, h2⟩
    · -- the factor starts in the first key
      by_cases ht : t = []
      · subst ht
        exact ih (fun k hk => h k (by simp [hk])) ⟨[], b, by simpa using h2⟩
      have ht2 := List.all_eq_true.1 hk.2.2 t (mem_sufs ht ⟨a, h1.symm⟩)
      rw [Bool.or_eq_true] at ht2
      rcases ht2 with ht2 | ht2
      · have hc := compat_false (by simpa using ht2)
        rcases List.append_eq_append_iff.1 h2 with ⟨w, hw, _⟩ | ⟨w, hw, _⟩
        · exact hc.2 ⟨w, hw.symm⟩
        · exact hc.1 ⟨w, hw.symm⟩
      · rw [seq_eq.1 ht2, show ecPlus ++ b = a!"{ec}" ++ (a!"{+}" ++ b) from rfl] at h2
        have h3 := List.append_cancel_left h2
        cases ks with
        | nil => cases h3
        | cons k' ks =>
          have hk' := List.all_eq_true.1 ipaKeys_ok k' (h k' (by simp))
          rw [Bool.and_eq_true, Bool.and_eq_true] at hk'
          have h4 := free_fin hk'.2.1 k' (by simp [fin])
          exact h4 ks.flatten b (by rw [h3, List.flatten_cons])
    · exact ih (fun k hk => h k (by simp [hk])) ⟨c, b, by rw [List.append_assoc, ← h2]⟩

theorem ext_keeps_ec : Keeps ecPlus EXTRACT_RIGHT_SIDE := by
  rw [extract_eq]
  refine keeps_cdr ?_ _ _
  intro l r h
  obtain ⟨h1, rfl⟩ := ext_iff.1 h
  by_cases hl : l = []
  · exact .inl ⟨hl, rfl⟩
  refine .inr ⟨hl, ?_⟩
  have hch : (∀ c ∈ l, c ≠ 123) ∧ ∃ c l', l = c :: l' ∧ (c = 60 ∨ c = 61) := by
    rcases h1 with hg | rfl
    · constructor
      · intro c hc
        obtain ⟨lt, rfl, h1, h2⟩ := graphemes_enc hg
        rintro rfl
        simp only [enc, List.mem_flatMap] at hc
        obtain ⟨a, ha, hc⟩ := hc
        have h3 := h2 a ha
        have h4 := h1 a ha
        cases a with
        | p s => cases h3
        | t s => cases h3
        | eq => simp [enc1, EQ] at hc
        | g s =>
          simp only [enc1, encloseGrapheme, List.mem_cons, List.mem_append, List.not_mem_nil, or_false] at hc
          rcases hc with hc | hc | hc
          · cases hc
          · have := nameChar_lt (h4 _ hc)
            omega
          · cases hc
      · rcases graphemes_head hg with rfl | ⟨w, rfl⟩
        · exact absurd rfl hl
        · exact ⟨60, w, rfl, .inl rfl⟩
    · exact ⟨by simp, 61, [], rfl, .inr rfl⟩
  obtain ⟨h2, c, l', rfl, hc⟩ := hch
  refine ⟨fun t ht hs => ?_, fun s hs hF _ => ?_⟩
  · cases t with
    | nil => exact absurd rfl ht
    | cons d t =>
      have hd := h2 d (hs.subset (by simp))
      rw [ecPlus, List.cons_prefix_cons, List.cons_prefix_cons]
      exact ⟨fun k => hd k.1, fun k => hd k.1.symm⟩
  · cases s with
    | nil => exact absurd rfl hs
    | cons d s =>
      have hd : d ∈ ecPlus := hF.subset (by simp)
      have : d ≠ c := by
        rintro rfl
        revert hd
        rcases hc with rfl | rfl <;> decide
      rw [List.cons_prefix_cons, List.cons_prefix_cons]
      exact ⟨fun k => this k.1.symm, fun k => this k.1⟩

theorem ipa_di {m : Mode} {x y : Str} (h : compose (txnToIpa m) x y) : ¬ ecPlus <:+: x := by
  intro hx
  rw [txnToIpa, compose_cons] at h
  obtain ⟨z, h1, h2⟩ := h
  change StarR _ z y at h2
  have hz := ext_keeps_ec _ _ h1 hx
  have : ∃ ks : List Str, (∀ k ∈ ks, k ∈ ipaKeys) ∧ z = ks.flatten := by
    clear hz h1
    induction h2 with
    | nil => exact ⟨[], (fun k hk => by cases hk), rfl⟩
    | cons hr k ih =>
      obtain ⟨ks, h3, rfl⟩ := ih
      obtain ⟨R, hR, hx⟩ := hr
      obtain ⟨p, hp, rfl⟩ := List.mem_map.1 hR
      refine ⟨p.ph :: ks, ?_, by rw [hx.1, List.flatten_cons]⟩
      intro k hk
      rw [List.mem_cons] at hk
      rcases hk with rfl | hk
      · exact List.mem_map.2 ⟨p, hp, rfl⟩
      · exact h3 k hk
  obtain ⟨ks, h3, rfl⟩ := this
  exact keys_ec ks h3 hz

/-! ## The default pronunciation of a diphthong -/

theorem di_ph : (diNames.all fun s => (Brh.CHAR.all fun c => !seq c.typ s || pre a!"{a}{+}" c.ph)) = true := by
  decide +kernel

theorem al_di {ts : List Tok} (h : Typ ts) {s : Str} (hs : s ∈ diNames) (hm : .g s ∈ ts) :
    a!"{a}{+}" <:+: enc (ts.flatMap alTok) := by
  obtain ⟨c, hc, he⟩ := h _ hm
  injection he with he
  subst he
  have h1 := List.all_eq_true.1 (List.all_eq_true.1 di_ph _ hs) c hc
  rw [Bool.or_eq_true] at h1
  rcases h1 with h1 | h1
  · have : seq c.typ c.typ = true := seq_eq.2 rfl
    rw [this] at h1
    cases h1
  · obtain ⟨us, vs, rfl⟩ := List.append_of_mem hm
    obtain ⟨w, hw⟩ := pre_iff.1 h1
    rw [List.flatMap_append, List.flatMap_cons, enc_append, enc_append, alTok_enc hc, ← hw]
    exact ⟨enc (us.flatMap alTok) ++ (c.gr ++ [EQ]), w ++ enc (vs.flatMap alTok), by simp⟩

end Nisaba.NT
