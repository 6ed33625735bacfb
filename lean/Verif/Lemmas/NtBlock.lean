import Verif.Lemmas.NtPrint
/-!
# The last stages of the grammars have exactly one output
-/
namespace Nisaba.NT

/-! ## Rules for units -/

section
variable {rs : List (Str × Str)} {C : Cx Nat}

theorem detCheck_ne {np : Bool} (h : detCheck np rs = true) {l r : Str} (hm : (l, r) ∈ rs) :
    l ≠ [] := by
  have h1 := List.all_eq_true.1 h _ hm
  rw [Bool.and_eq_true] at h1
  rintro rfl
  have := h1.1
  simp [seq] at this

theorem detCheck_pre (h : detCheck true rs = true) {l r l' r' : Str} (hm : (l, r) ∈ rs)
    (hm' : (l', r') ∈ rs) (hp : l <+: l') : (l = l' ∧ r = r') ∨ (l ++ a!"{+}") <+: l' := by
  have h1 := List.all_eq_true.1 h _ hm
  rw [Bool.and_eq_true] at h1
  have h2 := List.all_eq_true.1 h1.2 _ hm'
  simp only [pre_iff.2 hp, cond_true, Bool.or_eq_true, Bool.and_eq_true] at h2
  rcases h2 with ⟨h3, h4⟩ | ⟨_, h4⟩
  · exact .inl ⟨seq_eq.1 h3, seq_eq.1 h4⟩
  · exact .inr (pre_iff.1 h4)

theorem freeB_iff (h : freeB (rs.map Prod.fst) = true) {l r : Str} (hm : (l, r) ∈ rs) :
    ¬ (l <+: a!"{+}") ∧ ¬ (a!"{+}" <+: l) := by
  have h1 := List.all_eq_true.1 h l (List.mem_map.2 ⟨_, hm, rfl⟩)
  simp only [Bool.and_eq_true, Bool.not_eq_true'] at h1
  exact ⟨fun hp => Bool.eq_false_iff.1 h1.1 (pre_iff.2 hp),
    fun hp => Bool.eq_false_iff.1 h1.2 (pre_iff.2 hp)⟩

/-- The sign of composites is not rewritten. -/
theorem cdr_plus_keeps (hne : ∀ l r, (l, r) ∈ rs → l ≠ []) (hf : freeB (rs.map Prod.fst) = true)
    {out rest z : Str} (h : Cdr (rules rs) C out (a!"{+}" ++ rest) z) : 123 ∈ z := by
  generalize hr : a!"{+}" ++ rest = rest0 at h
  cases h with
  | done => cases hr
  | insEnd => cases hr
  | @apply _ l' r' rest' _ h' hl' =>
    exfalso
    have := freeB_iff hf h'
    rcases List.append_eq_append_iff.1 hr with ⟨w, hw, _⟩ | ⟨w, hw, _⟩
    · exact this.2 ⟨w, hw.symm⟩
    · exact this.1 ⟨w, hw.symm⟩
  | ins h' => exact absurd rfl (hne _ _ h')
  | copy h' k' =>
    injection hr with h1 h2
    subst h1; subst h2
    obtain ⟨w, rfl⟩ := k'.out_prefix
    simp

/-- At a unit only the rule of that unit leads to an output without phonemes. -/
theorem cdr_unit (hdet : detCheck true rs = true) (hf : freeB (rs.map Prod.fst) = true)
    (hL : ∀ x, C.left x) (hR : ∀ x, C.right x) {l r : Str} (hm : (l, r) ∈ rs) {out rest z : Str}
    (hrest : ∀ x, rest ≠ a!"{+}" ++ x) (h : Cdr (rules rs) C out (l ++ rest) z) (hz : 123 ∉ z) :
    Cdr (rules rs) C (out ++ r) rest z := by
  have hne := fun l r (hm : (l, r) ∈ rs) => detCheck_ne hdet hm
  generalize hr : l ++ rest = rest0 at h
  cases h with
  | done => simp [hne _ _ hm] at hr
  | insEnd => simp [hne _ _ hm] at hr
  | @apply _ l' r' rest' _ h' hl' _ _ k' =>
    rcases List.append_eq_append_iff.1 hr with ⟨w, hw, hw'⟩ | ⟨w, hw, hw'⟩
    · rcases detCheck_pre hdet hm h' ⟨w, hw.symm⟩ with ⟨h1, h2⟩ | h1
      · subst h1; subst h2
        rw [List.append_cancel_left hr]
        exact k'
      · exfalso
        obtain ⟨v, hv⟩ := h1
        rw [← hv, List.append_assoc] at hw
        rw [← List.append_cancel_left hw, List.append_assoc] at hw'
        exact hrest _ hw'
    · rcases detCheck_pre hdet h' hm ⟨w, hw.symm⟩ with ⟨h1, h2⟩ | h1
      · subst h1; subst h2
        rw [List.append_cancel_left hr]
        exact k'
      · exfalso
        obtain ⟨v, hv⟩ := h1
        rw [← hv, List.append_assoc] at hw
        rw [← List.append_cancel_left hw, List.append_assoc] at hw'
        subst hw'
        exact hz (cdr_plus_keeps hne hf k')
  | ins h' => exact absurd rfl (hne _ _ h')
  | copy h' k' => exact absurd (hR _) (h' l r rest hm hr.symm (hL _))

end

/-! ## `TRANSLIT_BY_PSA` -/

/-- The rules. -/
def psaRules : List (Str × Str) := Psa.PHONEMES.map (fun p => (p.ph, p.psa))

set_option maxRecDepth 100000 in
theorem psa_det : (detCheck true psaRules && freeB (psaRules.map Prod.fst)) = true := by
  decide +kernel

/-- A sequence of translits. -/
def trOk : Option (List Tok) → Str → Bool
  | some vs, s => seq s (enc vs) && vs.all (fun a => decide (cls a = .t))
  | none, _ => false

set_option maxRecDepth 100000 in
theorem psa_tr : (psaRules.all fun r => trOk (toks r.2) r.2) = true := by decide +kernel

set_option maxRecDepth 100000 in
theorem psa_all : ((pNames.map (fun s => enc [.p s]) ++ comps.map enc).all fun l =>
    psaRules.any fun r => seq r.1 l) = true := by decide +kernel

set_option maxRecDepth 100000 in
theorem psa_head : (psaRules.all fun r => match r.1 with | c :: _ => Nat.beq c 123 | [] => false) =
    true := by decide +kernel

theorem trOk_iff {s : Str} (h : trOk (toks s) s = true) :
    ∃ vs, s = enc vs ∧ ∀ a ∈ vs, cls a = .t := by
  revert h
  generalize toks s = x
  intro h
  cases x with
  | none => cases h
  | some vs =>
    rw [trOk, Bool.and_eq_true] at h
    exact ⟨vs, seq_eq.1 h.1, fun a ha => of_decide_eq_true (List.all_eq_true.1 h.2 a ha)⟩

/-- Symbols other than phonemes. -/
def NoP (vs : List Tok) : Prop :=
  ∀ a ∈ vs, cls a = .ga ∨ cls a = .g ∨ cls a = .eq ∨ cls a = .t

theorem NoP.run {vs : List Tok} (h : NoP vs) {q : Q} (hq : q = .c) : run M0 q vs = .c := by
  subst hq
  induction vs with
  | nil => rfl
  | cons a vs ih =>
    have : δ M0 .c (cls a) = .c := by
      rcases h a (by simp) with h | h | h | h <;> rw [h] <;> rfl
    rw [NT.run, this]
    exact ih fun a ha => h a (by simp [ha])

/-- The rule of a unit of phonemes. -/
theorem psa_unit {u : List Tok} (h : (∃ s ∈ pNames, u = [.p s]) ∨ u ∈ comps) :
    ∃ vs, (enc u, enc vs) ∈ psaRules ∧ ∀ a ∈ vs, cls a = .t := by
  have hm : enc u ∈ pNames.map (fun s => enc [.p s]) ++ comps.map enc := by
    rw [List.mem_append]
    rcases h with ⟨s, hs, rfl⟩ | h
    · exact .inl (List.mem_map.2 ⟨s, hs, rfl⟩)
    · exact .inr (List.mem_map.2 ⟨u, h, rfl⟩)
  have h1 := List.all_eq_true.1 psa_all _ hm
  rw [List.any_eq_true] at h1
  obtain ⟨⟨l, r⟩, hr, h2⟩ := h1
  have h3 : l = enc u := seq_eq.1 h2
  subst h3
  obtain ⟨vs, h4, h5⟩ := trOk_iff (List.all_eq_true.1 psa_tr _ hr)
  exact ⟨vs, by rw [← h4]; exact hr, h5⟩

theorem p_shape {u : List Tok} (h : (∃ s ∈ pNames, u = [.p s]) ∨ u ∈ comps) :
    (∀ q, srun q u ≠ .z → q = .r ∧ srun q u = .r) ∧ u.flatMap gproj = [] := by
  have hc : comps.all (fun u => allSh.all (fun q => decide (srun q u = .z) ||
      (decide (q = .r) && decide (srun q u = .r))) && (u.flatMap gproj).isEmpty) = true := by decide
  rcases h with ⟨s, _, rfl⟩ | h
  · refine ⟨fun q hq => ?_, rfl⟩
    cases q with
    | r => exact ⟨rfl, rfl⟩
    | s => exact absurd rfl hq
    | g => exact absurd rfl hq
    | z => exact absurd rfl hq
  · have h1 := List.all_eq_true.1 hc u h
    rw [Bool.and_eq_true] at h1
    refine ⟨fun q hq => ?_, by simpa using h1.2⟩
    have h2 := List.all_eq_true.1 h1.1 q (mem_allSh q)
    simp only [Bool.or_eq_true, decide_eq_true_eq, Bool.and_eq_true] at h2
    rcases h2 with h2 | h2
    · exact absurd h2 hq
    · exact h2

theorem cls_t_tok {a : Tok} (h : cls a = .t) : ∃ s, a = .t s ∧ s ∈ trNames := by
  cases a with
  | g s =>
    exfalso
    revert h
    rw [cls]
    cases seq s a!"a_i" <;> cases nameB s <;> (intro h; cases h)
  | eq => cases h
  | t s =>
    refine ⟨s, rfl, ?_⟩
    cases hb : trNames.any (seq s) with
    | true => exact any_seq hb
    | false => rw [cls, hb] at h; cases h
  | p s =>
    exfalso
    revert h
    rw [cls]
    generalize simNames.any (seq s) = b
    cases seq s a!"a" <;> cases seq s a!"i" <;> cases seq s a!"u" <;> cases seq s a!"t" <;>
      cases seq s a!"d" <;> cases seq s a!"sh" <;> cases seq s a!"zh" <;> cases seq s a!"+" <;>
      cases seq s a!":h" <;> cases seq s a!"H" <;> cases b <;> (intro h; cases h)

theorem t_shape {vs : List Tok} (h : ∀ a ∈ vs, cls a = .t) :
    srun .r vs = .r ∧ vs.flatMap gproj = [] := by
  induction vs with
  | nil => exact ⟨rfl, rfl⟩
  | cons a vs ih =>
    obtain ⟨s, rfl, _⟩ := cls_t_tok (h a (by simp))
    have := ih fun a ha => h a (by simp [ha])
    exact ⟨this.1, by simpa [gproj] using this.2⟩

/-- Rewriting a sequence of units. -/
theorem tbp_units {C : Cx Nat} (hL : ∀ x, C.left x) (hR : ∀ x, C.right x)
    (us : List (List Tok)) (hu : ∀ u ∈ us, Unit' u) :
    ∃ vs, NoP vs ∧ (∀ q, srun q us.flatten ≠ .z → srun q vs = srun q us.flatten) ∧
      vs.flatMap gproj = us.flatten.flatMap gproj ∧
      (∀ out, Cdr (rules psaRules) C out (enc us.flatten) (out ++ enc vs)) ∧
      ∀ out z, Cdr (rules psaRules) C out (enc us.flatten) z → 123 ∉ z → z = out ++ enc vs := by
  have hd := psa_det
  rw [Bool.and_eq_true] at hd
  have hne := fun l r (hm : rules psaRules l r) => detCheck_ne hd.1 hm
  induction us with
  | nil =>
    refine ⟨[], (fun a ha => by cases ha), fun _ _ => rfl, rfl, ?_, ?_⟩
    · intro out
      rw [show out ++ enc [] = out by simp [enc]]
      exact Cdr.done (fun r h => absurd rfl (hne _ _ h))
    · intro out z h _
      generalize hr : enc (List.flatten []) = rest at h
      cases h with
      | done => simp [enc]
      | insEnd h' => exact absurd rfl (hne _ _ h')
      | apply h' hl' =>
        have := congrArg List.length hr
        have := List.length_pos_iff.2 hl'
        simp [enc] at *
        omega
      | ins h' => cases hr
      | copy => cases hr
  | cons u us ih =>
    obtain ⟨vs, h1, h2, h3, h4, h5⟩ := ih fun u hu' => hu u (by simp [hu'])
    have hU := hu u (by simp)
    -- the rest does not start with the sign of composites
    have hrest : ∀ x, enc us.flatten ≠ a!"{+}" ++ x := by
      intro x he
      cases us with
      | nil => cases he
      | cons u' us =>
        have hU' := hu u' (by simp)
        have key : ∀ (a : Tok) (w : List Tok), a.plain → a ≠ .p a!"+" → enc (a :: w) ≠ a!"{+}" ++ x := by
          intro a w ha hne' he
          have := enc1_inj ha (b := .p a!"+") (by decide) (x := enc w) (y := x) (by rw [← enc_cons, he]; rfl)
          exact hne' this.1
        rw [List.flatten_cons] at he
        cases hU' with
        | g s h => exact key (.g s) _ (nameB_iff.1 h) (by simp) he
        | eq => exact key _ _ (by decide) (by simp) he
        | t s h => exact key (.t s) _ (nameB_iff.1 (List.all_eq_true.1 trNames_plain s h)) (by simp) he
        | p s h =>
          have hp : (pNames.all fun s => nameB s && !seq s a!"+") = true := by decide
          have h6 := List.all_eq_true.1 hp s h
          rw [Bool.and_eq_true] at h6
          refine key (.p s) _ (nameB_iff.1 h6.1) ?_ he
          intro h7
          injection h7 with h7
          subst h7
          exact absurd h6.2 (by decide)
        | comp u' h =>
          simp only [comps, List.mem_cons, List.not_mem_nil, or_false] at h
          rcases h with rfl | rfl | rfl | rfl <;> exact key _ _ (by decide) (by decide) he
    -- a symbol that is no phoneme
    have other : ∀ a : Tok, a.plain → (cls a = .ga ∨ cls a = .g ∨ cls a = .eq ∨ cls a = .t) →
        (∀ c ∈ enc1 a, c ≠ 123) → u = [a] → ∃ vs, NoP vs ∧
      (∀ q, srun q (u :: us).flatten ≠ .z → srun q vs = srun q (u :: us).flatten) ∧
      vs.flatMap gproj = (u :: us).flatten.flatMap gproj ∧
      (∀ out, Cdr (rules psaRules) C out (enc (u :: us).flatten) (out ++ enc vs)) ∧
      ∀ out z, Cdr (rules psaRules) C out (enc (u :: us).flatten) z → 123 ∉ z →
        z = out ++ enc vs := by
      intro a ha hcl hch hua
      subst hua
      have hskip := cdr_skip (τ := rules psaRules) (C := C) hne (s := enc1 a) (by
        intro c hc l r hm hh
        have h6 := List.all_eq_true.1 psa_head _ hm
        cases l with
        | nil => cases h6
        | cons d l =>
          injection hh with hh
          subst hh
          change Nat.beq d 123 = true at h6
          rw [Nat.beq_eq] at h6
          exact hch d hc h6)
      refine ⟨a :: vs, ?_, ?_, ?_, ?_, ?_⟩
      · intro b hb
        rw [List.mem_cons] at hb
        rcases hb with rfl | hb
        exacts [hcl, h1 b hb]
      · intro q hq
        exact h2 (σ q a) hq
      · simp only [List.flatten_cons, List.cons_append, List.nil_append, List.flatMap_cons, h3]
      · intro out
        rw [List.flatten_cons, enc_append]
        rw [show enc [a] = enc1 a by simp [enc], hskip, enc_cons, ← List.append_assoc]
        exact h4 _
      · intro out z h hz
        rw [List.flatten_cons, enc_append, show enc [a] = enc1 a by simp [enc], hskip] at h
        rw [enc_cons, ← List.append_assoc]
        exact h5 _ z h hz
    -- a unit of phonemes
    have phon : ((∃ s ∈ pNames, u = [.p s]) ∨ u ∈ comps) → ∃ vs, NoP vs ∧
      (∀ q, srun q (u :: us).flatten ≠ .z → srun q vs = srun q (u :: us).flatten) ∧
      vs.flatMap gproj = (u :: us).flatten.flatMap gproj ∧
      (∀ out, Cdr (rules psaRules) C out (enc (u :: us).flatten) (out ++ enc vs)) ∧
      ∀ out z, Cdr (rules psaRules) C out (enc (u :: us).flatten) z → 123 ∉ z →
        z = out ++ enc vs := by
      intro hp
      obtain ⟨ws, hm, hw⟩ := psa_unit hp
      obtain ⟨hs, hg⟩ := p_shape hp
      obtain ⟨hts, htg⟩ := t_shape hw
      refine ⟨ws ++ vs, ?_, ?_, ?_, ?_, ?_⟩
      · intro b hb
        rw [List.mem_append] at hb
        rcases hb with hb | hb
        exacts [.inr (.inr (.inr (hw b hb))), h1 b hb]
      · intro q hq
        rw [List.flatten_cons, srun_append] at hq
        rw [List.flatten_cons]
        have hq' : srun q u ≠ .z := fun hc => by rw [hc, srun_z] at hq; exact hq rfl
        obtain ⟨rfl, hr⟩ := hs q hq'
        rw [hr] at hq
        rw [srun_append, srun_append, hts, hr]
        exact h2 .r hq
      · rw [List.flatMap_append, List.flatten_cons, List.flatMap_append, h3, htg, hg]
      · intro out
        rw [List.flatten_cons, enc_append]
        refine .apply hm (hne _ _ hm) (hL _) (hR _) ?_
        rw [enc_append, ← List.append_assoc]
        exact h4 _
      · intro out z h hz
        rw [List.flatten_cons, enc_append] at h
        have h6 := cdr_unit hd.1 hd.2 hL hR hm hrest h hz
        rw [enc_append, ← List.append_assoc]
        exact h5 _ z h6 hz
    have plainCh : ∀ a : Tok, a.plain → (∀ s, a ≠ .p s) → ∀ c ∈ enc1 a, c ≠ 123 := by
      intro a ha hp c hc
      have hn : ∀ c ∈ a.name, c ≠ 123 := fun c hc => (nameChar_lt (ha c hc)).2.2.2.2.2.2.1
      cases a with
      | p s => exact absurd rfl (hp s)
      | eq => simp [enc1, EQ] at hc; omega
      | g s =>
        simp [enc1, encloseGrapheme, LT, GT] at hc
        rcases hc with rfl | hc | rfl
        exacts [by decide, hn c hc, by decide]
      | t s =>
        simp [enc1, encloseTranslit, GRAVE] at hc
        rcases hc with rfl | hc | rfl
        exacts [by decide, hn c hc, by decide]
    cases hU with
    | g s h =>
      have hpl : (Tok.g s).plain := nameB_iff.1 h
      refine other _ hpl ?_ (plainCh _ hpl (by simp)) rfl
      rw [cls, h]
      cases seq s a!"a_i" <;> simp
    | eq => exact other _ (by decide) (by decide) (plainCh _ (by decide) (by simp)) rfl
    | t s h =>
      have hpl : (Tok.t s).plain := nameB_iff.1 (List.all_eq_true.1 trNames_plain s h)
      refine other _ hpl ?_ (plainCh _ hpl (by simp)) rfl
      rw [cls, show trNames.any (seq s) = true from List.any_eq_true.2 ⟨s, h, seq_eq.2 rfl⟩]
      simp
    | p s h => exact phon (.inl ⟨s, h, rfl⟩)
    | comp _ h => exact phon (.inr h)

theorem tbp_eq : Rom.TRANSLIT_BY_PSA = [cdrewrite (rules psaRules) (str []) (str [])] := by
  rw [Rom.TRANSLIT_BY_PSA, rewriteLs, List.map_map]
  have := unionR_map Psa.PHONEMES Phn.ph Phn.psa
  rw [psaRules, ← this]
  rfl

/-- `TRANSLIT_BY_PSA` has exactly one output without phonemes. -/
theorem tbp_block {cfg : Cfg} {ts : List Tok} (h : OK cfg ts) :
    ∃ vs, OK M0 vs ∧ vs.flatMap gproj = ts.flatMap gproj ∧
      compose Rom.TRANSLIT_BY_PSA (enc ts) (enc vs) ∧
      ∀ z, compose Rom.TRANSLIT_BY_PSA (enc ts) z → 123 ∉ z → z = enc vs := by
  obtain ⟨us, rfl, hu⟩ := h.units
  obtain ⟨vs, h1, h2, h3, h4, h5⟩ := tbp_units (C := ctxOf (str []) (str []))
    (fun x => ctx_nil_left x _) (fun x => ctx_nil_right x _) us hu
  have hok : OK M0 vs := ⟨by rw [h1.run rfl]; rfl, by
    rw [h2 .s (fun hc => by have := h.2; rw [hc] at this; cases this)]; exact h.2⟩
  refine ⟨vs, hok, h3, ?_, ?_⟩
  · rw [tbp_eq]
    exact ⟨enc_over h.plain, enc_over hok.plain, h4 []⟩
  · intro z hz
    rw [tbp_eq] at hz
    exact h5 [] z hz.2.2

/-! ## `EXTRACT_RIGHT_SIDE` -/

/-- Symbols of right sides. -/
def isR : Tok → Bool
  | .p _ => true
  | .t _ => true
  | _ => false

/-- The rules of `EXTRACT_RIGHT_SIDE`. -/
def extRel : Rel := cross (oneOf [GRAPHEMES, str [EQ]]) (str [])

theorem extract_eq : EXTRACT_RIGHT_SIDE = cdrewrite extRel (str []) (str []) := rfl

theorem ext_iff {l r : Str} : extRel l r ↔ (GRAPHEMES l ∨ l = [61]) ∧ r = [] := by
  simp only [extRel, cross, oneOf, List.mem_cons, List.not_mem_nil, or_false, exists_eq_or_imp,
    exists_eq_left, str, EQ]

theorem symChar_name {c : Nat} (h : symChar c) : nameChar c = true := by
  unfold symChar at h
  simp only [List.mem_cons, List.not_mem_nil, or_false] at h
  simp only [nameChar, Bool.or_eq_true, Bool.and_eq_true, Nat.ble_eq, Nat.beq_eq]
  omega

/-- Words of `GRAPHEMES`. -/
theorem graphemes_enc {l : Str} (h : GRAPHEMES l) :
    ∃ lt, l = enc lt ∧ Plain lt ∧ ∀ a ∈ lt, isR a = false := by
  induction h with
  | nil => exact ⟨[], rfl, (fun a ha => by cases ha), (fun a ha => by cases ha)⟩
  | cons h k ih =>
    obtain ⟨lt, rfl, h1, h2⟩ := ih
    obtain ⟨u, v, rfl, rfl, w, x, rfl, hw, rfl⟩ := h
    refine ⟨.g w :: lt, rfl, ?_, ?_⟩
    · rw [plain_cons]
      exact ⟨fun c hc => symChar_name (hw c hc), h1⟩
    · intro a ha
      rw [List.mem_cons] at ha
      rcases ha with rfl | ha
      exacts [rfl, h2 a ha]

theorem grapheme_of_g {s : Str} (h : (Tok.g s).plain) : GRAPHEMES (enc1 (.g s)) := by
  have : GRAPHEME (enc1 (.g s)) :=
    ⟨[LT], s ++ [GT], rfl, rfl, s, [GT], rfl, fun c hc => nameChar_sym (h c hc), rfl⟩
  have h2 := Star.cons this Star.nil
  rwa [List.append_nil] at h2

section
variable {C : Cx Nat} (hL : ∀ x, C.left x) (hR : ∀ x, C.right x)
include hL hR

/-- Characters that start no grapheme and are no sign `=` are copied. -/
theorem ext_skip {s : Str} (hs : ∀ c ∈ s, c ≠ 60 ∧ c ≠ 61) (out rest y : Str) :
    Cdr extRel C out (s ++ rest) y ↔ Cdr extRel C (out ++ s) rest y := by
  have hnil : extRel [] [] := ext_iff.2 ⟨.inl .nil, rfl⟩
  induction s generalizing out with
  | nil => simp
  | cons c s ih =>
    rw [show out ++ c :: s = (out ++ [c]) ++ s by simp]
    refine Iff.trans ?_ (ih (fun c hc => hs c (by simp [hc])) (out ++ [c]))
    constructor
    · intro h
      generalize hr : c :: s ++ rest = rest0 at h
      cases h with
      | done => cases hr
      | insEnd => cases hr
      | @apply _ l' r' rest' _ h' hl' hL' hR' k' =>
        exfalso
        have hc := hs c (by simp)
        rcases (ext_iff.1 h').1 with hg | rfl
        · rcases graphemes_head hg with rfl | ⟨w, rfl⟩
          · exact hl' rfl
          · injection hr with h1 _; exact hc.1 h1
        · injection hr with h1 _; exact hc.2 h1
      | ins h' _ _ k' =>
        injection hr with h1 h2
        subst h1; subst h2
        rw [(ext_iff.1 h').2, List.append_nil] at k'
        exact k'
      | copy h' k' =>
        exact absurd (hR _) (h' [] [] _ hnil rfl (hL _))
    · intro h
      refine .ins hnil (hL _) (hR _) ?_
      simpa using h

/-- The only output without left sides. -/
theorem ext_unique {ts : List Tok} (hts : Plain ts) {out z : Str}
    (h : Cdr extRel C out (enc ts) z) (hz : 60 ∉ z) (hz' : 61 ∉ z) :
    z = out ++ enc (ts.filter isR) := by
  have hnil : extRel [] [] := ext_iff.2 ⟨.inl .nil, rfl⟩
  induction hn : ts.length using Nat.strongRecOn generalizing ts out with
  | _ n ih =>
    match ts, hts, h, hn with
    | [], _, h, _ =>
      generalize hr : enc [] = rest at h
      cases h with
      | done h' => exact absurd (hR _) (h' [] hnil (hL _))
      | insEnd h' => rw [(ext_iff.1 h').2]; rfl
      | apply h' hl' =>
        have := congrArg List.length hr
        have := List.length_pos_iff.2 hl'
        simp [enc] at *
        omega
      | ins h' => cases hr
      | copy => cases hr
    | .g s :: ts, hts, h, hn =>
      generalize hr : enc (.g s :: ts) = rest at h
      cases h with
      | done => cases hr
      | insEnd => cases hr
      | @apply _ l' r' rest' _ h' hl' _ _ k' =>
        obtain ⟨h1, rfl⟩ := ext_iff.1 h'
        rcases h1 with hg | rfl
        · obtain ⟨lt, rfl, h2, h3⟩ := graphemes_enc hg
          obtain ⟨vt, h4, rfl⟩ := enc_prefix hts h2 hr
          rw [List.append_nil] at k'
          have hlen : vt.length < n := by
            have : lt ≠ [] := by rintro rfl; exact hl' rfl
            have := List.length_pos_iff.2 this
            rw [← hn, h4, List.length_append]
            omega
          have hv : Plain vt := by rw [h4, plain_append] at hts; exact hts.2
          rw [ih _ hlen hv k' rfl, h4, List.filter_append,
            (List.filter_eq_nil_iff.2 (fun a ha => by rw [h3 a ha]; simp) : lt.filter isR = []),
            List.nil_append]
        · injection hr with h1 _; exact absurd h1 (by decide)
      | ins h' _ _ k' =>
        exfalso
        obtain ⟨w, rfl⟩ := k'.out_prefix
        injection hr with h1 _
        subst h1
        exact hz (by simp [LT])
      | copy h' k' => exact absurd (hR _) (h' [] [] _ hnil rfl (hL _))
    | .eq :: ts, hts, h, hn =>
      generalize hr : enc (.eq :: ts) = rest at h
      cases h with
      | done => cases hr
      | insEnd => cases hr
      | @apply _ l' r' rest' _ h' hl' _ _ k' =>
        obtain ⟨h1, rfl⟩ := ext_iff.1 h'
        rcases h1 with hg | rfl
        · rcases graphemes_head hg with rfl | ⟨w, rfl⟩
          · exact absurd rfl hl'
          · injection hr with h1 _; exact absurd h1 (by decide)
        · injection hr with _ h1
          change enc ts = rest' at h1
          subst h1
          rw [List.append_nil] at k'
          rw [plain_cons] at hts
          exact ih ts.length (by rw [← hn]; simp) hts.2 k' rfl
      | ins h' _ _ k' =>
        exfalso
        obtain ⟨w, rfl⟩ := k'.out_prefix
        injection hr with h1 _
        subst h1
        exact hz' (by simp [EQ])
      | copy h' k' => exact absurd (hR _) (h' [] [] _ hnil rfl (hL _))
    | .p s :: ts, hts, h, hn =>
      rw [plain_cons] at hts
      rw [enc_cons, ext_skip hL hR (fun c hc => by
        simp only [enc1, enclosePhoneme, CURLYL, CURLYR, List.mem_cons, List.mem_append,
          List.not_mem_nil, or_false] at hc
        rcases hc with rfl | hc | rfl
        · decide
        · have := nameChar_lt (hts.1 c hc); omega
        · decide)] at h
      rw [ih ts.length (by rw [← hn]; simp) hts.2 h rfl, List.append_assoc]
      rfl
    | .t s :: ts, hts, h, hn =>
      rw [plain_cons] at hts
      rw [enc_cons, ext_skip hL hR (fun c hc => by
        simp only [enc1, encloseTranslit, GRAVE, List.mem_cons, List.mem_append,
          List.not_mem_nil, or_false] at hc
        rcases hc with rfl | hc | rfl
        · decide
        · have := nameChar_lt (hts.1 c hc); omega
        · decide)] at h
      rw [ih ts.length (by rw [← hn]; simp) hts.2 h rfl, List.append_assoc]
      rfl

/-- The output without left sides. -/
theorem ext_out {ts : List Tok} (hts : Plain ts) (out : Str) :
    Cdr extRel C out (enc ts) (out ++ enc (ts.filter isR)) := by
  have hnil : extRel [] [] := ext_iff.2 ⟨.inl .nil, rfl⟩
  induction ts generalizing out with
  | nil => exact .insEnd hnil (hL _) (hR _)
  | cons a ts ih =>
    rw [plain_cons] at hts
    cases a with
    | g s =>
      rw [enc_cons]
      refine .apply (ext_iff.2 ⟨.inl (grapheme_of_g hts.1), rfl⟩) (enc1_ne _) (hL _) (hR _) ?_
      simpa [isR] using ih hts.2 out
    | eq =>
      rw [enc_cons]
      refine .apply (ext_iff.2 ⟨.inr rfl, rfl⟩) (enc1_ne _) (hL _) (hR _) ?_
      simpa [isR] using ih hts.2 out
    | p s =>
      rw [enc_cons, ext_skip hL hR (fun c hc => by
        simp only [enc1, enclosePhoneme, CURLYL, CURLYR, List.mem_cons, List.mem_append,
          List.not_mem_nil, or_false] at hc
        rcases hc with rfl | hc | rfl
        · decide
        · have := nameChar_lt (hts.1 c hc); omega
        · decide)]
      have := ih hts.2 (out ++ enc1 (.p s))
      rw [List.append_assoc] at this
      exact this
    | t s =>
      rw [enc_cons, ext_skip hL hR (fun c hc => by
        simp only [enc1, encloseTranslit, GRAVE, List.mem_cons, List.mem_append,
          List.not_mem_nil, or_false] at hc
        rcases hc with rfl | hc | rfl
        · decide
        · have := nameChar_lt (hts.1 c hc); omega
        · decide)]
      have := ih hts.2 (out ++ enc1 (.t s))
      rw [List.append_assoc] at this
      exact this

end

/-- Characters of phonemes stay. -/
theorem ext_keeps {x y : Str} (h : EXTRACT_RIGHT_SIDE x y) (hm : 123 ∈ x) : 123 ∈ y := by
  rw [extract_eq] at h
  refine cdr_keeps ?_ h.2.2 (by simpa using hm)
  intro l r hlr hd
  rcases (ext_iff.1 hlr).1 with hg | rfl
  · obtain ⟨lt, rfl, h1, h2⟩ := graphemes_enc hg
    simp only [enc, List.mem_flatMap] at hd
    obtain ⟨a, ha, hc⟩ := hd
    have h3 := h2 a ha
    have h4 := h1 a ha
    cases a with
    | g s =>
      simp [enc1, encloseGrapheme, LT, GT] at hc
      have := nameChar_lt (h4 123 hc)
      omega
    | eq => simp [enc1, EQ] at hc
    | p s => cases h3
    | t s => cases h3
  · simp at hd

/-- Extraction of the right sides. -/
theorem extract_iff {ts : List Tok} (hts : Plain ts) :
    EXTRACT_RIGHT_SIDE (enc ts) (enc (ts.filter isR)) ∧
    ∀ z, EXTRACT_RIGHT_SIDE (enc ts) z → 60 ∉ z → 61 ∉ z → z = enc (ts.filter isR) := by
  rw [extract_eq]
  have hf : Plain (ts.filter isR) := fun a ha => hts a (List.mem_filter.1 ha).1
  refine ⟨⟨enc_over hts, enc_over hf, ?_⟩, ?_⟩
  · simpa using ext_out (C := ctxOf (str []) (str [])) (fun x => ctx_nil_left x _)
      (fun x => ctx_nil_right x _) hts []
  · intro z hz h1 h2
    simpa using ext_unique (fun x => ctx_nil_left x _) (fun x => ctx_nil_right x _) hts hz.2.2 h1 h2

/-! ## Stars of tables of symbols -/

/-- A star of a table from single symbols. -/
theorem starR_toks {rs : List (Str × Str)} {f : Tok → Str}
    (hr : ∀ l r, (l, r) ∈ rs → ∃ a : Tok, a.plain ∧ l = enc1 a ∧ r = f a) {ts : List Tok}
    (hts : Plain ts) {y : Str} (h : StarR (rules rs) (enc ts) y) :
    y = ts.flatMap f ∧ ∀ a ∈ ts, (enc1 a, f a) ∈ rs := by
  have hne : ∀ u x, rules rs u x → u ≠ [] := by
    intro u x hm
    obtain ⟨a, _, rfl, _⟩ := hr u x hm
    exact enc1_ne a
  induction ts generalizing y with
  | nil => rw [show enc [] = [] from rfl, starR_nil_iff hne] at h; exact ⟨h, by simp⟩
  | cons a ts ih =>
    rw [plain_cons] at hts
    rw [starR_cons_iff (by rw [enc_cons]; simp [enc1_ne])] at h
    obtain ⟨u, v, x, z, hm, hv, he, rfl⟩ := h
    obtain ⟨b, hb, rfl, rfl⟩ := hr u x hm
    rw [enc_cons] at he
    obtain ⟨rfl, rfl⟩ := enc1_inj hts.1 hb he
    obtain ⟨rfl, h2⟩ := ih hts.2 hv
    refine ⟨rfl, ?_⟩
    intro c hc
    rw [List.mem_cons] at hc
    rcases hc with rfl | hc
    exacts [hm, h2 c hc]

theorem starR_toks_out {rs : List (Str × Str)} {f : Tok → Str} {ts : List Tok}
    (h : ∀ a ∈ ts, (enc1 a, f a) ∈ rs) : StarR (rules rs) (enc ts) (ts.flatMap f) := by
  induction ts with
  | nil => exact .nil
  | cons a ts ih =>
    exact .cons (h a (by simp)) (ih fun b hb => h b (by simp [hb]))

/-- Inputs of a star are made of characters of the inputs of the table. -/
theorem starR_chars {R : Rel} {x y : Str} (h : StarR R x y) {c : Nat} (hc : c ∈ x) :
    ∃ u v, R u v ∧ c ∈ u := by
  induction h with
  | nil => cases hc
  | cons h k ih =>
    rw [List.mem_append] at hc
    rcases hc with hc | hc
    exacts [⟨_, _, h, hc⟩, ih hc]

end Nisaba.NT
