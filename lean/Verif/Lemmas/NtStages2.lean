import Verif.Lemmas.NtStages
/-!
# Stages with contexts that matter: voicing, diphthongs; inclusions between the variants
-/
namespace Nisaba.NT

/-! ## Right contexts that exclude the sign of composites -/

/-- No word of the language can be followed so as to start with the sign of composites. -/
def Free (A : Lang) : Prop := ∀ y, A y → ∀ t z, y ++ t ≠ a!"{+}" ++ z
/-- The same for nonempty words. -/
def Free0 (A : Lang) : Prop := ∀ y, A y → y = [] ∨ ∀ t z, y ++ t ≠ a!"{+}" ++ z

theorem Free.free0 {A : Lang} (h : Free A) : Free0 A := fun y hy => .inr (h y hy)

theorem free_cat {A B : Lang} (ha : Free0 A) (hb : Free B) : Free (cat A B) := by
  rintro _ ⟨u, v, rfl, hu, hv⟩ t z
  rcases ha u hu with rfl | h
  · exact hb v hv t z
  · rw [List.append_assoc]; exact h (v ++ t) z

theorem free_cat_left {A B : Lang} (ha : Free A) : Free (cat A B) := by
  rintro _ ⟨u, v, rfl, hu, hv⟩ t z
  rw [List.append_assoc]; exact ha u hu (v ++ t) z

theorem free0_ques {A : Lang} (h : Free0 A) : Free0 (ques A) := by
  rintro y (hy | rfl)
  · exact h y hy
  · exact .inl rfl

theorem free_oneOf {ls : List Lang} (h : ∀ l ∈ ls, Free l) : Free (oneOf ls) := by
  rintro y ⟨l, hl, hy⟩
  exact h l hl y hy

theorem free_of_head {A : Lang} (h : ∀ y, A y → y = [] ∨ ∃ c w, y = c :: w ∧ c ≠ 123) : Free0 A := by
  intro y hy
  rcases h y hy with rfl | ⟨c, w, rfl, hc⟩
  · exact .inl rfl
  · refine .inr fun t z he => ?_
    injection he with h1 _
    exact hc h1

theorem graphemes_head {y : Str} (h : GRAPHEMES y) : y = [] ∨ ∃ w, y = 60 :: w := by
  cases h with
  | nil => exact .inl rfl
  | cons h k =>
    obtain ⟨u, v, rfl, rfl, _⟩ := h
    exact .inr ⟨_, rfl⟩

theorem skipLeft_head {y : Str} (h : SKIP_LEFT_SIDE y) :
    y = [] ∨ ∃ c w, y = c :: w ∧ (c = 60 ∨ c = 61) := by
  rcases h with ⟨u, v, rfl, hu, rfl⟩ | rfl
  · rcases graphemes_head hu with rfl | ⟨w, rfl⟩
    · exact .inr ⟨61, [], rfl, .inr rfl⟩
    · exact .inr ⟨60, _, rfl, .inl rfl⟩
  · exact .inl rfl

theorem skip_head {y : Str} (h : SKIP y) : y = [] ∨ ∃ c w, y = c :: w ∧ (c = 60 ∨ c = 61) := by
  rcases h with h | h
  · exact skipLeft_head h
  · rcases h with ⟨u, v, rfl, rfl, _⟩ | rfl
    · exact .inr ⟨61, _, rfl, .inr rfl⟩
    · exact .inl rfl

theorem free0_skipLeft : Free0 SKIP_LEFT_SIDE := by
  refine free_of_head fun y hy => ?_
  rcases skipLeft_head hy with h | ⟨c, w, h, hc⟩
  · exact .inl h
  · exact .inr ⟨c, w, h, by omega⟩

theorem free0_skip : Free0 SKIP := by
  refine free_of_head fun y hy => ?_
  rcases skip_head hy with h | ⟨c, w, h, hc⟩
  · exact .inl h
  · exact .inr ⟨c, w, h, by omega⟩

/-- Decision for finite languages. -/
def freeB (xs : List Str) : Bool := xs.all fun x => (!pre x a!"{+}") && (!pre a!"{+}" x)

theorem free_fin {xs : List Str} (h : freeB xs = true) : Free (fin xs) := by
  intro y hy t z he
  have h1 := List.all_eq_true.1 h y hy
  simp only [Bool.and_eq_true, Bool.not_eq_true'] at h1
  rcases List.append_eq_append_iff.1 he with ⟨w, hw, _⟩ | ⟨w, hw, _⟩
  · exact Bool.eq_false_iff.1 h1.1 (pre_iff.2 ⟨w, hw.symm⟩)
  · exact Bool.eq_false_iff.1 h1.2 (pre_iff.2 ⟨w, hw.symm⟩)

theorem free_phUnion {ps : List Phn} (h : freeB (ps.map Phn.ph) = true) : Free (Psa.phUnion ps) := by
  rw [phUnion_fin]; exact free_fin h

theorem ctx_free {L R : Lang} (h : Free R) (x : Str) : ¬ (ctxOf L R).right (a!"{+}" ++ x) := by
  rintro ⟨u, v, he, hu⟩
  rw [List.append_assoc] at he
  exact h _ hu _ _ he.symm

theorem free_concatR {A B : Lang} (ha : Free0 A) (hb : Free B) : Free (concatR A B) :=
  free_cat ha (free_cat (free0_ques free0_skipLeft) hb)

set_option maxRecDepth 100000

theorem free_vowel : Free Psa.lVOWEL := free_cat_left (free_phUnion (by decide +kernel))
theorem free_approximant : Free Psa.lAPPROXIMANT := free_phUnion (by decide +kernel)
theorem free_nasal : Free Psa.lNASAL := free_phUnion (by decide +kernel)
theorem free_rhotic : Free Psa.lRHOTIC := free_phUnion (by decide +kernel)
theorem free_asp : Free (ph a!"ASP") := by
  rw [ph, str_fin]; exact free_fin (by decide +kernel)

theorem free_ml : Free Ml.voicingCtx := by
  refine free_oneOf ?_
  simp only [List.mem_cons, List.not_mem_nil, or_false]
  rintro l (rfl | rfl | rfl)
  exacts [free_vowel, free_approximant, free_nasal]

theorem free_ta : Free Ta.voicingCtx := by
  refine free_oneOf ?_
  simp only [List.mem_cons, List.not_mem_nil, or_false]
  rintro l (rfl | rfl | rfl | rfl)
  exacts [free_vowel, free_approximant, free_nasal, free_rhotic]

attribute [local irreducible] Mul.ph Psa.ph

macro "nt_voice" : tactic => `(tactic|
  simp only [voicing, rewriteLs, rewriteOp, List.map_cons, List.map_nil, K_G, P_B, T_D, TI_DI,
    TT_DD, TSH_DZH, TSH_S, mulPh, str_fin, cross_fin, unionR_cons, unionR_nil, orR_rules])

theorem Ml.st_VOICING : StsL [M1] Ml.VOICING := by
  unfold Ml.VOICING
  refine stsL_cons ?_ stsL_nil
  nt_voice
  refine sts_of_checksNP (by decide +kernel) _ _ (ctx_free ?_)
  exact free_cat free0_skip (free_concatR (free0_ques free_asp.free0) free_ml)

theorem Ml.st_POSTNASAL_TT : StsL [M1] Ml.POSTNASAL_TT := by
  unfold Ml.POSTNASAL_TT
  refine stsL_cons ?_ stsL_nil
  nt_voice
  exact sts_of_checks (by decide +kernel) _ _

theorem Ta.st_VOICING : StsL [M1t] Ta.VOICING := by
  unfold Ta.VOICING
  refine stsL_cons ?_ stsL_nil
  nt_voice
  exact sts_of_checksNP (by decide +kernel) _ _ (ctx_free (free_cat free0_skip free_ta))

theorem Ta.st_C_WI : StsL [M1t] Ta.C_WI := by
  unfold Ta.C_WI
  refine stsL_cons ?_ stsL_nil
  nt_voice
  exact sts_of_checksNP (by decide +kernel) _ _ (ctx_free (free_cat free0_skip free_ta))

theorem Ta.st_NY_TSH : StsL [M1t] Ta.NY_TSH := by
  unfold Ta.NY_TSH
  refine stsL_cons ?_ stsL_nil
  nt_voice
  exact sts_of_checksNP (by decide +kernel) _ _ (ctx_free (free_cat free0_skip free_ta))

/-! ## Inclusions -/

/-- The simulation of one variant by another one. -/
def inclB (cfg cfg' : Cfg) : Bool :=
  allQ.all fun q => allQ.all fun q' =>
    bif le cfg' q q' then allCl.all fun x => le cfg' (δ cfg q x) (δ cfg' q' x) else true

theorem incl_run {cfg cfg' : Cfg} (h : inclB cfg cfg' = true) {q q' : Q} (hq : le cfg' q q' = true)
    (ts : List Tok) : le cfg' (run cfg q ts) (run cfg' q' ts) = true := by
  induction ts generalizing q q' with
  | nil => exact hq
  | cons a ts ih =>
    have h1 := List.all_eq_true.1 (List.all_eq_true.1 h q (mem_allQ q)) q' (mem_allQ q')
    rw [hq, cond_true] at h1
    exact ih (List.all_eq_true.1 h1 _ (mem_allCl _))

theorem OK.mono {cfg cfg' : Cfg} (h : inclB cfg cfg' = true) {ts : List Tok} (hk : OK cfg ts) :
    OK cfg' ts :=
  ⟨le_acc (incl_run h (by simp [le]) ts) hk.1, hk.2⟩

theorem incl_M2_M1r : inclB M2 M1r = true := by decide +kernel
theorem incl_M1_M1r : inclB M1 M1r = true := by decide +kernel
theorem incl_M1t_M1tr : inclB M1t M1tr = true := by decide +kernel
theorem incl_M1tr_M1r : inclB M1tr M1r = true := by decide +kernel
theorem incl_M1h_M1 : inclB M1h M1 = true := by decide +kernel
theorem incl_M1t_M1 : inclB M1t M1 = true := by decide +kernel

/-! ## Stages in sequence -/

/-- A stage, or a composition of stages, between two languages of sequences. -/
def StD (P Q : List Tok → Prop) (R : Rel) : Prop := St P Q R ∧ Det R

theorem st_comp {P Q S : List Tok → Prop} {R T : Rel} (h : St P Q R) (k : St Q S T) :
    St P S (Rel.comp R T) := by
  constructor
  · rintro ts hp z ⟨y, hy, hz⟩
    obtain ⟨us, rfl, hq, h1⟩ := h.1 ts hp y hy
    obtain ⟨vs, rfl, hs, h2⟩ := k.1 us hq z hz
    exact ⟨vs, rfl, hs, h2.trans h1⟩
  · intro ts hp
    obtain ⟨y, hy⟩ := h.2 ts hp
    obtain ⟨us, rfl, hq, _⟩ := h.1 ts hp y hy
    obtain ⟨z, hz⟩ := k.2 us hq
    exact ⟨z, _, hy, hz⟩

theorem st_id {P : List Tok → Prop} : St P P (compose []) :=
  ⟨fun ts hp z hz => ⟨ts, hz.symm, hp, rfl⟩, fun ts _ => ⟨enc ts, rfl⟩⟩

theorem st_compose {P : List Tok → Prop} {rs : List Rel} (h : ∀ R ∈ rs, St P P R) :
    St P P (compose rs) := by
  induction rs with
  | nil => exact st_id
  | cons r rs ih =>
    rw [compose_cons]
    exact st_comp (h r (by simp)) (ih fun R hR => h R (by simp [hR]))

theorem stsL_compose {cs : List Cfg} {rs : List Rel} (h : StsL cs rs) {cfg : Cfg} (hc : cfg ∈ cs) :
    StD (OK cfg) (OK cfg) (compose rs) :=
  ⟨st_compose fun R hR => (h R hR).1 cfg hc, det_compose fun R hR => (h R hR).2⟩

theorem st_append {P Q S : List Tok → Prop} {rs ss : List Rel} (h : St P Q (compose rs))
    (k : St Q S (compose ss)) : St P S (compose (rs ++ ss)) := by
  have : compose (rs ++ ss) = Rel.comp (compose rs) (compose ss) := by
    funext x z; exact propext (compose_append rs ss x z)
  rw [this]; exact st_comp h k

theorem det_append {rs ss : List Rel} (h : Det (compose rs)) (k : Det (compose ss)) :
    Det (compose (rs ++ ss)) := by
  intro x y z hy hz
  rw [compose_append] at hy hz
  obtain ⟨u, hu, hy⟩ := hy
  obtain ⟨v, hv, hz⟩ := hz
  have := h _ _ _ hu hv
  subst this
  exact k _ _ _ hy hz

theorem stD_append {P Q S : List Tok → Prop} {rs ss : List Rel} (h : StD P Q (compose rs))
    (k : StD Q S (compose ss)) : StD P S (compose (rs ++ ss)) :=
  ⟨st_append h.1 k.1, det_append h.2 k.2⟩

theorem St.weaken {P P' Q Q' : List Tok → Prop} {R : Rel} (h : St P Q R) (hp : ∀ ts, P' ts → P ts)
    (hq : ∀ ts, Q ts → Q' ts) : St P' Q' R :=
  ⟨fun ts hts z hz => by
    obtain ⟨us, h1, h2, h3⟩ := h.1 ts (hp _ hts) z hz
    exact ⟨us, h1, hq _ h2, h3⟩, fun ts hts => h.2 ts (hp _ hts)⟩

/-! ## Diphthongs -/

/-- No factor. -/
def NoF (lt ws : List Tok) : Prop := ∀ u v, ws ≠ u ++ lt ++ v

/-- A factor of a sequence that shares no symbol with a part of it lies on one side of that part. -/
theorem factor_side {α : Type} {o rt q ut lt vt : List α} (h : o ++ rt ++ q = ut ++ lt ++ vt)
    (hd : ∀ x ∈ lt, x ∉ rt) (hr : rt ≠ []) (hl : lt ≠ []) :
    ut.length + lt.length ≤ o.length ∨ o.length + rt.length ≤ ut.length := by
  by_contra hc
  rw [not_or, Nat.not_le, Nat.not_le] at hc
  obtain ⟨h1, h2⟩ := hc
  have hr' := List.length_pos_iff.2 hr
  have hl' := List.length_pos_iff.2 hl
  let i := max ut.length o.length
  have hi1 : i < o.length + rt.length := by simp only [i]; omega
  have hi2 : i < ut.length + lt.length := by simp only [i]; omega
  have hi3 : o.length ≤ i := by simp only [i]; omega
  have hi4 : ut.length ≤ i := by simp only [i]; omega
  have e1 : (o ++ rt ++ q)[i]? = rt[i - o.length]? := by
    rw [List.append_assoc, List.getElem?_append_right hi3, List.getElem?_append_left (by omega)]
  have e2 : (ut ++ lt ++ vt)[i]? = lt[i - ut.length]? := by
    rw [List.append_assoc, List.getElem?_append_right hi4, List.getElem?_append_left (by omega)]
  rw [h, e2] at e1
  have l1 : i - ut.length < lt.length := by omega
  have l2 : i - o.length < rt.length := by omega
  rw [List.getElem?_eq_getElem l1, List.getElem?_eq_getElem l2] at e1
  injection e1 with e1
  exact hd _ (List.getElem_mem l1) (e1 ▸ List.getElem_mem l2)

/-- Replacing a part by symbols that a factor does not have creates no such factor. -/
theorem noF_replace {o mt rt q lt : List Tok} (hd : ∀ x ∈ lt, x ∉ rt) (hr : rt ≠ []) (hl : lt ≠ [])
    (h : NoF lt (o ++ mt ++ q)) : NoF lt (o ++ rt ++ q) := by
  intro u v he
  rcases factor_side he hd hr hl with h1 | h1
  · -- in the part before
    have : o = u ++ lt ++ o.drop (u ++ lt).length := by
      have h2 : (u ++ lt) <+: o := by
        refine List.prefix_of_prefix_length_le ⟨v, he.symm⟩ (by rw [List.append_assoc]; exact List.prefix_append _ _) ?_
        simpa using h1
      exact (List.prefix_iff_eq_append.1 h2).symm
    exact h u (o.drop (u ++ lt).length ++ mt ++ q) (by
      conv => lhs; rw [this]
      simp only [List.append_assoc])
  · have h2 : (o ++ rt) <+: u := by
      refine List.prefix_of_prefix_length_le ⟨q, he⟩ (by rw [List.append_assoc]; exact List.prefix_append _ _) ?_
      simpa using h1
    obtain ⟨w, rfl⟩ := h2
    rw [List.append_assoc (o ++ rt) w, List.append_assoc (o ++ rt)] at he
    have := List.append_cancel_left he
    exact h (o ++ mt ++ w) v (by rw [this]; simp only [List.append_assoc])

theorem ctx_nil_left (x : Str) (R : Lang) : (ctxOf (str []) R).left x :=
  ⟨bos :: x, [], by simp, rfl⟩
theorem ctx_nil_right (x : Str) (L : Lang) : (ctxOf L (str [])).right x :=
  ⟨[], x ++ [eos], by simp, rfl⟩

/-- A rule without contexts leaves no occurrence of its input. -/
theorem cdr_noF {P : List Tok → Prop} {a : Tok} {lt rt : List Tok} (hP : ∀ ts, P ts → Plain ts)
    (hpl : Plain (a :: lt)) (ha : ∀ s, a ≠ .t s) (hd : ∀ x ∈ a :: lt, x ∉ rt) (hr : rt ≠ [])
    (hok : ∀ o q, P (o ++ (a :: lt) ++ q) → P (o ++ rt ++ q)) {C : Cx Nat} (hL : ∀ x, C.left x)
    (hR : ∀ x, C.right x) {out rest y : Str}
    (h : Cdr (rules [(enc (a :: lt), enc rt)]) C out rest y) (ws : List Tok)
    (hw : out ++ rest = enc ws) (hp : P ws)
    (hi : ∀ u v, out ++ rest = u ++ enc (a :: lt) ++ v → out.length ≤ u.length) :
    ∃ us, y = enc us ∧ P us ∧ NoF (a :: lt) us := by
  have hne : enc (a :: lt) ≠ [] := by rw [enc_cons]; simp [enc1_ne]
  induction h generalizing ws with
  | @done out h =>
    refine ⟨ws, by simpa using hw, hp, ?_⟩
    rintro u v rfl
    have := hi (enc u) (enc v) (by rw [hw, enc_append, enc_append])
    have h2 := congrArg List.length hw
    have h3 := List.length_pos_iff.2 hne
    simp only [enc_append, List.length_append, List.length_nil] at h2
    omega
  | insEnd h =>
    rw [rules, List.mem_singleton] at h
    injection h with h _
    exact absurd h.symm hne
  | @apply out l r rest fin h _ _ _ k ih =>
    rw [rules, List.mem_singleton] at h
    injection h with h1 h2
    subst h1; subst h2
    obtain ⟨o, q, rfl, rfl, rfl⟩ := enc_factor (hP _ hp) hpl ha (by rw [← hw, List.append_assoc])
    have hp' := hok o q hp
    refine ih (o ++ rt ++ q) (by rw [enc_append, enc_append]) hp' ?_
    intro u v he
    obtain ⟨ut, vt, h3, rfl, rfl⟩ := enc_factor (hP _ hp') hpl ha
      (by rw [enc_append, enc_append, he])
    rcases factor_side h3 hd hr (by simp) with h4 | h4
    · exfalso
      have h5 : (ut ++ (a :: lt)) <+: o := by
        refine List.prefix_of_prefix_length_le ⟨vt, h3.symm⟩
          (by rw [List.append_assoc]; exact List.prefix_append _ _) ?_
        simpa using h4
      obtain ⟨w, rfl⟩ := h5
      have := hi (enc ut) (enc (w ++ ((a :: lt) ++ q))) (by simp only [enc_append, List.append_assoc])
      have h6 := List.length_pos_iff.2 hne
      simp only [enc_append, List.length_append] at this
      omega
    · have h5 : (o ++ rt) <+: ut := by
        refine List.prefix_of_prefix_length_le ⟨q, h3⟩
          (by rw [List.append_assoc]; exact List.prefix_append _ _) ?_
        simpa using h4
      obtain ⟨w, rfl⟩ := h5
      simp only [enc_append, List.length_append]
      omega
  | ins h =>
    rw [rules, List.mem_singleton] at h
    injection h with h _
    exact absurd h.symm hne
  | @copy out rest fin c h k ih =>
    refine ih ws (by rw [← hw]; simp) hp ?_
    intro u v he
    have he' : out ++ c :: rest = u ++ enc (a :: lt) ++ v := by rw [← he]; simp
    have h1 := hi u v he'
    rcases Nat.lt_or_ge out.length u.length with h2 | h2
    · rw [List.length_append, List.length_singleton]; omega
    · exfalso
      rw [List.append_assoc] at he'
      obtain ⟨h3, h4⟩ := List.append_inj he' (by omega)
      exact h _ _ v (List.mem_singleton.2 rfl) h4 (hL _) (hR _)

/-- The diphthongs as sequences. -/
def AIt : List Tok := [.p a!"a", .p a!"+", .p a!"i"]
def AUt : List Tok := [.p a!"a", .p a!"+", .p a!"u"]
def EHt : List Tok := [.p a!"eh", .p a!":h"]
def OHt : List Tok := [.p a!"oh", .p a!":h"]

/-- Sequences without diphthongs. -/
def NoDi (ts : List Tok) : Prop := OK M1 ts ∧ NoF AIt ts ∧ NoF AUt ts

theorem st_noF {P : List Tok → Prop} {a : Tok} {lt rt : List Tok} (hP : ∀ ts, P ts → Plain ts)
    (hpl : Plain (a :: lt)) (ha : ∀ s, a ≠ .t s) (hd : ∀ x ∈ a :: lt, x ∉ rt) (hr : rt ≠ [])
    (hg : (a :: lt).flatMap gproj = rt.flatMap gproj)
    (hok : ∀ o q, P (o ++ (a :: lt) ++ q) → P (o ++ rt ++ q)) :
    St P (fun ts => P ts ∧ NoF (a :: lt) ts)
      (rewrite (str (enc (a :: lt))) (str (enc rt))) := by
  have hne : enc (a :: lt) ≠ [] := by rw [enc_cons]; simp [enc1_ne]
  have hrule : ∀ C : Cx Nat, ∀ l r, (l, r) ∈ [(enc (a :: lt), enc rt)] → RuleOk gproj P C.right l r := by
    intro C l r h
    rw [List.mem_singleton] at h
    injection h with h1 h2
    exact ⟨a, lt, rt, h1, h2, hpl, ha, hg, fun o q _ hp => hok o q hp⟩
  have hform : rewrite (str (enc (a :: lt))) (str (enc rt)) =
      cdrewrite (rules [(enc (a :: lt), enc rt)]) (str []) (str []) := by
    simp only [rewrite, rewriteOp, str_fin, cross_fin]
    rfl
  rw [hform]
  constructor
  · intro ts hp z hz
    obtain ⟨us, rfl, h1, h2⟩ := closed_cdrewrite hP (hrule _) ts hp z hz
    obtain ⟨vs, h3, h4, h5⟩ := cdr_noF hP hpl ha hd hr hok (fun x => ctx_nil_left x _)
      (fun x => ctx_nil_right x _) hz.2.2 ts rfl hp (by intro u v _; simp)
    obtain rfl := enc_inj (hP _ h1) (hP _ h4) h3
    exact ⟨us, rfl, ⟨h1, h5⟩, h2⟩
  · exact tot_cdrewrite hP (hrule _)

attribute [local irreducible] Brh.gr Ltn.tr

theorem seqCheck_AI : seqCheck M1 false AIt EHt = true := by decide +kernel
theorem seqCheck_AU : seqCheck M1 false AUt OHt = true := by decide +kernel

theorem AI_str : Psa.ph a!"A_I" = enc AIt ∧ Psa.ph a!"EH" ++ Psa.ph a!"DURH" = enc EHt := by
  have : (seq (Psa.ph a!"A_I") (enc AIt) && seq (Psa.ph a!"EH" ++ Psa.ph a!"DURH") (enc EHt)) = true := by
    decide +kernel
  rw [Bool.and_eq_true] at this
  exact ⟨seq_eq.1 this.1, seq_eq.1 this.2⟩

theorem AU_str : Psa.ph a!"A_U" = enc AUt ∧ Psa.ph a!"OH" ++ Psa.ph a!"DURH" = enc OHt := by
  have : (seq (Psa.ph a!"A_U") (enc AUt) && seq (Psa.ph a!"OH" ++ Psa.ph a!"DURH") (enc OHt)) = true := by
    decide +kernel
  rw [Bool.and_eq_true] at this
  exact ⟨seq_eq.1 this.1, seq_eq.1 this.2⟩

theorem cat_str (a b : Str) : cat (str a) (str b) = str (a ++ b) := by
  rw [str_fin, str_fin, str_fin, cat_fin]; rfl

theorem st_AI_AU : StD (OK M1) NoDi (compose (G2p.AI_TO_EH_LONG ++ G2p.AU_TO_OH_LONG)) := by
  have e1 : G2p.AI_TO_EH_LONG = [rewrite (str (enc AIt)) (str (enc EHt))] := by
    rw [G2p.AI_TO_EH_LONG, ph, phL, ph, ph, cat_str, AI_str.1, AI_str.2]
  have e2 : G2p.AU_TO_OH_LONG = [rewrite (str (enc AUt)) (str (enc OHt))] := by
    rw [G2p.AU_TO_OH_LONG, ph, phL, ph, ph, cat_str, AU_str.1, AU_str.2]
  have d : ∀ l r : Str, l ≠ [] → Det (rewrite (str l) (str r)) := by
    intro l r hl
    have hform : rewrite (str l) (str r) = cdrewrite (rules [(l, r)]) (str []) (str []) := by
      simp only [rewrite, rewriteOp, str_fin, cross_fin]; rfl
    rw [hform]
    intro s y z hy hz
    refine cdr_det ?_ ?_ hy.2.2 hz.2.2
    · intro l' r' h
      rw [rules, List.mem_singleton] at h
      injection h with h1 _
      rw [h1]; exact hl
    · intro l1 r1 l2 r2 x x' h h' _ _ _
      rw [rules, List.mem_singleton] at h h'
      injection h with h1 h2
      injection h' with h3 h4
      exact ⟨h1.trans h3.symm, h2.trans h4.symm⟩
  have s1 : St (OK M1) (fun ts => OK M1 ts ∧ NoF AIt ts) (compose G2p.AI_TO_EH_LONG) := by
    rw [e1]
    exact st_noF (fun _ h => h.plain) (plainB_iff.1 rfl) (by simp) (by decide) (by decide) rfl
      (fun o q h => seqCheck_sound seqCheck_AI o q (fun hb => by cases hb) h)
  have s2 : St (fun ts => OK M1 ts ∧ NoF AIt ts) (fun ts => (OK M1 ts ∧ NoF AIt ts) ∧ NoF AUt ts)
      (compose G2p.AU_TO_OH_LONG) := by
    rw [e2]
    refine st_noF (fun _ h => h.1.plain) (plainB_iff.1 rfl) (by simp) (by decide) (by decide) rfl ?_
    rintro o q ⟨h1, h2⟩
    exact ⟨seqCheck_sound seqCheck_AU o q (fun hb => by cases hb) h1,
      noF_replace (by decide) (by decide) (by decide) h2⟩
  refine ⟨(st_append s1 s2).weaken (fun _ h => h) (fun ts h => ⟨h.1.1, h.1.2, h.2⟩), ?_⟩
  rw [e1, e2]
  exact det_append (d _ _ (by decide)) (d _ _ (by decide))

/-! The automaton without diphthongs. -/

theorem cls_a {t : Tok} (h : cls t = .a) : t = .p a!"a" := by
  cases t with
  | g s =>
    exfalso
    revert h
    rw [cls]
    cases seq s a!"a_i" <;> cases nameB s <;> (intro h; cases h)
  | eq => cases h
  | t s =>
    exfalso
    revert h
    rw [cls]
    generalize trNames.any (seq s) = b
    cases b <;> (intro h; cases h)
  | p s =>
    revert h
    rw [cls]
    generalize simNames.any (seq s) = b
    intro h
    cases h1 : seq s a!"a" with
    | true => rw [seq_eq.1 h1]
    | false =>
      exfalso
      rw [h1] at h
      revert h
      cases seq s a!"i" <;> cases seq s a!"u" <;> cases seq s a!"t" <;>
        cases seq s a!"d" <;> cases seq s a!"sh" <;> cases seq s a!"zh" <;> cases seq s a!"+" <;>
        cases seq s a!":h" <;> cases seq s a!"H" <;> cases b <;> (intro h; cases h)

theorem cls_iu {t : Tok} (h : cls t = .iu) : t = .p a!"i" ∨ t = .p a!"u" := by
  cases t with
  | g s =>
    exfalso
    revert h
    rw [cls]
    cases seq s a!"a_i" <;> cases nameB s <;> (intro h; cases h)
  | eq => cases h
  | t s =>
    exfalso
    revert h
    rw [cls]
    generalize trNames.any (seq s) = b
    cases b <;> (intro h; cases h)
  | p s =>
    revert h
    rw [cls]
    generalize simNames.any (seq s) = b
    intro h
    cases h1 : seq s a!"i" with
    | true => rw [seq_eq.1 h1]; exact .inl rfl
    | false =>
      cases h2 : seq s a!"u" with
      | true => rw [seq_eq.1 h2]; exact .inr rfl
      | false =>
        exfalso
        rw [h1, h2] at h
        revert h
        cases seq s a!"a" <;> cases seq s a!"t" <;>
          cases seq s a!"d" <;> cases seq s a!"sh" <;> cases seq s a!"zh" <;> cases seq s a!"+" <;>
          cases seq s a!":h" <;> cases seq s a!"H" <;> cases b <;> (intro h; cases h)

/-- The state of the automaton without diphthongs. -/
def dropA : Q → Q
  | .A => .c
  | q => q

theorem dropA_all : (allQ.all fun q => allCl.all fun x =>
    decide (q = .A1) || decide (δ M1 q x = .A1) || le M2 (dropA (δ M1 q x)) (δ M2 (dropA q) x)) = true := by
  decide +kernel

theorem A1_all : (allQ.all fun q => allCl.all fun x =>
    !decide (δ M1 q x = .A1) || (decide (q = .A) && decide (x = .plus))) = true := by decide +kernel
theorem A_all : (allQ.all fun q => allCl.all fun x =>
    !decide (δ M1 q x = .A) || decide (x = .a)) = true := by decide +kernel
theorem A1_iu : (allCl.all fun x => decide (δ M1 .A1 x = .z) || decide (x = .iu)) = true := by
  decide +kernel

theorem run_noDi {ts : List Tok} {q : Q} (hq : q ≠ .A1) (h : acc (run M1 q ts) = true)
    (hA : q = .A → ∀ v, ts ≠ [.p a!"+", .p a!"i"] ++ v ∧ ts ≠ [.p a!"+", .p a!"u"] ++ v)
    (hi : NoF AIt ts) (hu : NoF AUt ts) : acc (run M2 (dropA q) ts) = true := by
  induction ts generalizing q with
  | nil => cases q <;> exact h
  | cons t ts ih =>
    have hi' : NoF AIt ts := fun u v he => hi (t :: u) v (by rw [he]; simp)
    have hu' : NoF AUt ts := fun u v he => hu (t :: u) v (by rw [he]; simp)
    have h1 := List.all_eq_true.1 (List.all_eq_true.1 dropA_all q (mem_allQ _)) (cls t) (mem_allCl _)
    have h2 := List.all_eq_true.1 (List.all_eq_true.1 A1_all q (mem_allQ _)) (cls t) (mem_allCl _)
    have h3 := List.all_eq_true.1 (List.all_eq_true.1 A_all q (mem_allQ _)) (cls t) (mem_allCl _)
    simp only [Bool.or_eq_true, decide_eq_true_eq, Bool.not_eq_true', decide_eq_false_iff_not,
      Bool.and_eq_true] at h1 h2 h3
    have hA1 : δ M1 q (cls t) ≠ .A1 := by
      intro hb
      rcases h2 with h2 | ⟨rfl, h2⟩
      · exact h2 hb
      · have := cls_plus h2
        subst this
        rw [run, hb] at h
        cases ts with
        | nil => cases h
        | cons t' ts =>
          rw [run] at h
          have h4 := List.all_eq_true.1 A1_iu (cls t') (mem_allCl _)
          simp only [Bool.or_eq_true, decide_eq_true_eq] at h4
          rcases h4 with h4 | h4
          · rw [h4, run_z] at h; cases h
          · rcases cls_iu h4 with rfl | rfl
            · exact (hA rfl ts).1 rfl
            · exact (hA rfl ts).2 rfl
    rw [run] at h ⊢
    have h5 := ih hA1 h (by
      intro hb v
      rcases h3 with h3 | h3
      · exact absurd hb h3
      · have := cls_a h3
        subst this
        constructor
        · intro he; exact hi [] v (by rw [he]; rfl)
        · intro he; exact hu [] v (by rw [he]; rfl)) hi' hu'
    rcases h1 with (h1 | h1) | h1
    · exact absurd h1 hq
    · exact absurd h1 hA1
    · exact le_acc (le_run h1 ts) h5

theorem NoDi.ok {ts : List Tok} (h : NoDi ts) : OK M2 ts :=
  ⟨run_noDi (q := .c) (by decide) h.1.1 (fun hb => by cases hb) h.2.1 h.2.2, h.1.2⟩

end Nisaba.NT
