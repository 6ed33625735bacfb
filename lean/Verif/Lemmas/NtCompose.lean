import Verif.Lemmas.NtText
/-!
# Composition of graphemes is complete
-/
namespace Nisaba.NT

/-- Obligatory left-to-right rewriting of sequences, with one symbol as the output of a rule. -/
inductive TRew (rs : List (List Tok × Tok)) : List Tok → List Tok → Prop
  | nil : TRew rs [] []
  | app {l r rest us} (h : (l, r) ∈ rs) (k : TRew rs rest us) : TRew rs (l ++ rest) (r :: us)
  | copy {a ts us} (h : ∀ l r, (l, r) ∈ rs → ¬ l <+: a :: ts) (k : TRew rs ts us) :
      TRew rs (a :: ts) (a :: us)

theorem tRew_exists {rs : List (List Tok × Tok)} (hne : ∀ l r, (l, r) ∈ rs → l ≠ []) (ts : List Tok) :
    ∃ us, TRew rs ts us := by
  induction hn : ts.length using Nat.strongRecOn generalizing ts with
  | _ n ih =>
    cases ts with
    | nil => exact ⟨[], .nil⟩
    | cons a ts =>
      by_cases h : ∃ l r, (l, r) ∈ rs ∧ l <+: a :: ts
      · obtain ⟨l, r, hm, rest, he⟩ := h
        have hl := List.length_pos_iff.2 (hne l r hm)
        have hlen := congrArg List.length he
        simp only [List.length_append] at hlen
        obtain ⟨us, hu⟩ := ih rest.length (by omega) rest rfl
        rw [← he]
        exact ⟨_, .app hm hu⟩
      · obtain ⟨us, hu⟩ := ih ts.length (by rw [← hn]; simp) ts rfl
        exact ⟨_, .copy (fun l r hm hp => h ⟨l, r, hm, hp⟩) hu⟩

/-- The rules on texts. -/
def encRules (rs : List (List Tok × Tok)) : List (Str × Str) := rs.map fun r => (enc r.1, enc1 r.2)

theorem tRew_cdr {rs : List (List Tok × Tok)} {C : Cx Nat} (hL : ∀ x, C.left x)
    (hR : ∀ x, C.right x)
    (hg : ∀ l r, (l, r) ∈ rs → (∃ s l', l = .g s :: l') ∧ Plain l) {ts us : List Tok}
    (h : TRew rs ts us) (hts : Plain ts) (out : Str) :
    Cdr (rules (encRules rs)) C out (enc ts) (out ++ enc us) := by
  have hne : ∀ l r, rules (encRules rs) l r → l ≠ [] := by
    intro l r hm
    obtain ⟨p, hp, he⟩ := List.mem_map.1 hm
    obtain ⟨⟨s, l', h1⟩, _⟩ := hg p.1 p.2 hp
    injection he with h2 _
    rw [← h2, h1, enc_cons]
    simp [enc1_ne]
  induction h generalizing out with
  | nil =>
    have : Cdr (rules (encRules rs)) C out [] out := .done fun r hm _ _ => hne _ _ hm rfl
    simpa [enc_nil] using this
  | @app l r rest us hm k ih =>
    rw [plain_append] at hts
    rw [enc_append, enc_cons, ← List.append_assoc]
    exact .apply (List.mem_map.2 ⟨_, hm, rfl⟩) (hne _ _ (List.mem_map.2 ⟨_, hm, rfl⟩)) (hL _) (hR _)
      (ih hts.2 _)
  | @copy a ts us hc k ih =>
    have hts' := hts
    rw [plain_cons] at hts
    have key := ih hts.2 (out ++ enc1 a)
    rw [enc_cons, enc_cons, ← List.append_assoc]
    cases he : enc1 a with
    | nil => exact absurd he (enc1_ne a)
    | cons c s =>
      rw [List.cons_append]
      refine .copy ?_ ?_
      · intro l r rest' hm hx _ _
        obtain ⟨p, hp, he2⟩ := List.mem_map.1 hm
        injection he2 with h2 h3
        subst h2
        have h4 : enc (a :: ts) = enc p.1 ++ rest' := by rw [enc_cons, he, ← hx]; rfl
        obtain ⟨vt, h5, _⟩ := enc_prefix hts' (hg _ _ hp).2 h4
        exact hc p.1 p.2 hp ⟨vt, h5.symm⟩
      · rw [cdr_skip hne]
        · rw [he] at key
          simpa using key
        · intro d hd l r hm hh
          obtain ⟨p, hp, he2⟩ := List.mem_map.1 hm
          injection he2 with h2 h3
          subst h2
          obtain ⟨⟨s', l', h1⟩, _⟩ := hg p.1 p.2 hp
          rw [h1] at hh
          injection hh with hh
          have := enc1_tail_not_opener hts.1 (u := [c]) (w := s) (by simp) (by simpa using he) d hd
          rw [← hh] at this
          cases this

/-- A factor without outputs of rules was there before, and no rule applied at its start. -/
theorem tRew_prefix {rs : List (List Tok × Tok)} {f ts us : List Tok}
    (hf : ∀ l r, (l, r) ∈ rs → r ∉ f) (h : TRew rs ts us) (hp : f <+: us) :
    f <+: ts ∧ (f ≠ [] → ∀ l r, (l, r) ∈ rs → ¬ l <+: ts) := by
  induction f generalizing ts us with
  | nil => exact ⟨List.nil_prefix, fun h => absurd rfl h⟩
  | cons b f ih =>
    cases h with
    | nil => simp at hp
    | app hm k =>
      rw [List.cons_prefix_cons] at hp
      exact absurd (by simp [hp.1]) (hf _ _ hm)
    | copy hc k =>
      rw [List.cons_prefix_cons] at hp
      obtain ⟨rfl, hp⟩ := hp
      have := ih (fun l r hm hc => hf l r hm (by simp [hc])) k hp
      exact ⟨by rw [List.cons_prefix_cons]; exact ⟨rfl, this.1⟩, fun _ => hc⟩

/-- A suffix of an output is the output of a suffix. -/
theorem tRew_suffix {rs : List (List Tok × Tok)} {ts us v w : List Tok} (h : TRew rs ts us)
    (he : us = v ++ w) : ∃ x y, ts = x ++ y ∧ TRew rs y w := by
  induction v generalizing ts us with
  | nil => subst he; exact ⟨[], ts, rfl, h⟩
  | cons b v ih =>
    cases h with
    | nil => cases he
    | app hm k =>
      injection he with h1 h2
      obtain ⟨x, y, rfl, hy⟩ := ih k h2
      exact ⟨_ ++ x, y, by rw [List.append_assoc], hy⟩
    | copy hc k =>
      injection he with h1 h2
      obtain ⟨x, y, rfl, hy⟩ := ih k h2
      exact ⟨_ :: x, y, rfl, hy⟩

/-- Without factors in a list. -/
def NoFac (fs : List (List Tok)) (ts : List Tok) : Prop := ∀ f ∈ fs, ¬ f <:+: ts

theorem tRew_free {rs : List (List Tok × Tok)} {fs : List (List Tok)} {ts us : List Tok}
    (hne : ∀ l r, (l, r) ∈ rs → l ≠ [])
    (hr : ∀ l r, (l, r) ∈ rs → ∀ f ∈ fs ++ rs.map Prod.fst, r ∉ f) (hfree : NoFac fs ts)
    (h : TRew rs ts us) : NoFac (fs ++ rs.map Prod.fst) us := by
  rintro f hf ⟨v, w, he⟩
  obtain ⟨x, y, rfl, hy⟩ := tRew_suffix h (v := v) (w := f ++ w) (by rw [← he, List.append_assoc])
  have hp := tRew_prefix (fun l r hm => hr l r hm f hf) hy (List.prefix_append f w)
  rw [List.mem_append] at hf
  rcases hf with hf | hf
  · obtain ⟨z, hz⟩ := hp.1
    exact hfree f hf ⟨x, z, by rw [List.append_assoc, hz]⟩
  · obtain ⟨⟨l, r⟩, hm, rfl⟩ := List.mem_map.1 hf
    exact hp.2 (hne _ _ hm) _ _ hm hp.1

/-- The rules of a list of composites. -/
def tRules (cs : List Chr) : List (List Tok × Tok) :=
  cs.map fun c => ((toks c.cmp).getD [], .g c.typ)

def isG : Tok → Bool
  | .g _ => true
  | _ => false

/-- What is needed of the composites. -/
def tCheck (cs : List Chr) : Bool :=
  cs.all fun c => seq c.cmp (enc ((toks c.cmp).getD [])) && (plainB ((toks c.cmp).getD []) &&
    (((toks c.cmp).getD []).head?.any isG && nameB c.typ))

theorem tCheck_rules {cs : List Chr} (h : tCheck cs = true) : cmpRules cs = encRules (tRules cs) := by
  rw [cmpRules, encRules, tRules, List.map_map]
  apply List.map_congr_left
  intro c hc
  have h1 := List.all_eq_true.1 h c hc
  rw [Bool.and_eq_true] at h1
  simp only [Function.comp]
  rw [← seq_eq.1 h1.1]
  rfl

theorem tCheck_g {cs : List Chr} (h : tCheck cs = true) :
    ∀ l r, (l, r) ∈ tRules cs → (∃ s l', l = .g s :: l') ∧ Plain l := by
  intro l r hm
  obtain ⟨c, hc, he⟩ := List.mem_map.1 hm
  injection he with h2 h3
  have h1 := List.all_eq_true.1 h c hc
  rw [Bool.and_eq_true, Bool.and_eq_true, Bool.and_eq_true] at h1
  rw [h2] at h1
  refine ⟨?_, plainB_iff.1 h1.2.1⟩
  have h4 := h1.2.2.1
  cases l with
  | nil => cases h4
  | cons a l =>
    cases a with
    | g s => exact ⟨s, l, rfl⟩
    | eq => cases h4
    | p s => cases h4
    | t s => cases h4

theorem tCheck_out {cs : List Chr} (h : tCheck cs = true) :
    ∀ l r, (l, r) ∈ tRules cs → r.plain := by
  intro l r hm
  obtain ⟨c, hc, he⟩ := List.mem_map.1 hm
  injection he with h2 h3
  have h1 := List.all_eq_true.1 h c hc
  rw [Bool.and_eq_true, Bool.and_eq_true, Bool.and_eq_true] at h1
  rw [← h3]
  exact nameB_iff.1 h1.2.2.2

theorem tRew_plain {rs : List (List Tok × Tok)} (ho : ∀ l r, (l, r) ∈ rs → r.plain)
    {ts us : List Tok} (h : TRew rs ts us) (hts : Plain ts) : Plain us := by
  induction h with
  | nil => exact hts
  | app hm k ih =>
    rw [plain_append] at hts
    rw [plain_cons]
    exact ⟨ho _ _ hm, ih hts.2⟩
  | copy hc k ih =>
    rw [plain_cons] at hts ⊢
    exact ⟨hts.1, ih hts.2⟩

/-- Outputs of the stages are not in the given factors. -/
def freshCheck (fs : List (List Tok)) (cs : List Chr) : Bool :=
  cs.all fun c => (fs ++ (tRules cs).map Prod.fst).all fun f => f.all fun a =>
    match a with
    | .g s => !seq s c.typ
    | _ => true

theorem compose_free {fs : List (List Tok)} {cs : List Chr} (hc : tCheck cs = true)
    (hf : freshCheck fs cs = true) (hd : Det (composeFromGr cs)) {ts us : List Tok}
    (hts : Plain ts) (hus : Plain us) (hfree : NoFac fs ts) (h : composeFromGr cs (enc ts) (enc us)) :
    NoFac (fs ++ (tRules cs).map Prod.fst) us := by
  have hg := tCheck_g hc
  have hne : ∀ l r, (l, r) ∈ tRules cs → l ≠ [] := by
    intro l r hm
    obtain ⟨⟨s, l', h1⟩, _⟩ := hg l r hm
    simp [h1]
  have hr : ∀ l r, (l, r) ∈ tRules cs → ∀ f ∈ fs ++ (tRules cs).map Prod.fst, r ∉ f := by
    intro l r hm f hff hrf
    obtain ⟨c, hc', he⟩ := List.mem_map.1 hm
    injection he with h2 h3
    subst h3
    have h1 := List.all_eq_true.1 (List.all_eq_true.1 (List.all_eq_true.1 hf c hc') f hff) _ hrf
    simp [seq_eq.2 rfl] at h1
  obtain ⟨vs, hv⟩ := tRew_exists hne ts
  have hpv : Plain vs := tRew_plain (tCheck_out hc) hv hts
  have hvs : enc vs = enc us := by
    refine hd _ _ _ ?_ h
    rw [composeFromGr_eq, tCheck_rules hc]
    refine ⟨enc_over hts, enc_over hpv, ?_⟩
    have := tRew_cdr (C := ctxOf (str []) (str [])) (fun x => ctx_nil_left x _)
      (fun x => ctx_nil_right x _) hg hv hts []
    simpa using this
  rw [enc_inj hpv hus hvs] at hv
  exact tRew_free hne hr hfree hv

/-! ## All stages -/

/-- The factors replaced by a stage. -/
def cmpF (cs : List Chr) : List (List Tok) := (tRules cs).map Prod.fst

def F1 : List (List Tok) := [] ++ cmpF Brh.LONG_VOCALIC
def F2 : List (List Tok) := F1 ++ cmpF Brh.TWO_POINT_SIGN
def F4 : List (List Tok) := F2 ++ cmpF Brh.INDEPENDENT_VOWEL
def F5 : List (List Tok) := F4 ++ cmpF Brh.COMPOSITE_CONSONANT
def F6 : List (List Tok) := F5 ++ cmpF (Brh.OM ++ Brh.CND)

section
set_option maxRecDepth 100000
theorem tc1 : (tCheck Brh.LONG_VOCALIC && freshCheck [] Brh.LONG_VOCALIC) = true := by decide +kernel
theorem tc2 : (tCheck Brh.TWO_POINT_SIGN && freshCheck F1 Brh.TWO_POINT_SIGN) = true := by
  decide +kernel
theorem tc4 : (tCheck Brh.INDEPENDENT_VOWEL && freshCheck F2 Brh.INDEPENDENT_VOWEL) = true := by
  decide +kernel
theorem tc5 : (tCheck Brh.COMPOSITE_CONSONANT && freshCheck F4 Brh.COMPOSITE_CONSONANT) = true := by
  decide +kernel
theorem tc6 : (tCheck (Brh.OM ++ Brh.CND) && freshCheck F5 (Brh.OM ++ Brh.CND)) = true := by
  decide +kernel
/-- The sign of independent vowels does not start a factor of the first stages. -/
theorem tc3 : (F2.all fun f => match f with | .g s :: _ => !seq s a!"ind" | _ => false) = true := by
  decide +kernel
end

theorem noFac_step {fs : List (List Tok)} {cs : List Chr}
    (hc : (tCheck cs && freshCheck fs cs) = true) (hd : Det (composeFromGr cs)) {ts us : List Tok}
    (hts : Plain ts) (hus : Plain us) (hfree : NoFac fs ts)
    (h : composeFromGr cs (enc ts) (enc us)) : NoFac (fs ++ cmpF cs) us := by
  rw [Bool.and_eq_true] at hc
  exact compose_free hc.1 hc.2 hd hts hus hfree h

theorem noFac_ind {ts : List Tok} (h : NoFac F2 ts) : NoFac F2 (.g a!"ind" :: ts) := by
  rintro f hf hi
  rw [List.infix_cons_iff] at hi
  rcases hi with hi | hi
  · have h1 := List.all_eq_true.1 tc3 f hf
    cases f with
    | nil => cases h1
    | cons a f =>
      rw [List.cons_prefix_cons] at hi
      rw [hi.1] at h1
      simp [seq] at h1
  · exact h f hf hi

theorem vs_char {c : Chr} (h : c ∈ Brh.VOWEL_SIGN) : c ∈ Brh.CHAR := by
  simp only [Brh.VOWEL_SIGN, Brh.CHAR, Brh.SINGLE_POINT, Brh.TWO_POINT, List.mem_append] at h ⊢
  tauto

/-- All stages: composites are composed and a vowel sign at the start becomes independent. -/
theorem iso_full (m : Mode) {cs : List Chr} (h : IsoCs cs) :
    ∃ ts, TypS ts ∧ NoFac F6 ts ∧ compose (isoToTypRules m) (m.labels (cs.flatMap Chr.glyph)) (enc ts) ∧
      (∀ z, compose (isoToTypRules m) (m.labels (cs.flatMap Chr.glyph)) z → z = enc ts) ∧
      (ts.flatMap gl = cs.flatMap Chr.glyph ∨
        ts.flatMap gl = 46 :: cs.flatMap Chr.glyph ∧
          ∃ v ∈ Brh.VOWEL_SIGN, v.typ ≠ a!"aan" ∧ v.glyph <+: cs.flatMap Chr.glyph) := by
  obtain ⟨e0, t0, g0⟩ := read_typ fun c hc => sp_char (h c hc)
  have r0 := (readGlyph_iff m Brh.SINGLE_POINT _ _).2 ⟨cs, h, rfl, rfl⟩
  rw [e0] at r0
  generalize (cs.map fun c => Tok.g c.typ) = ts0 at *
  obtain ⟨ts1, t1, g1, r1, u1⟩ := cmp_step cmp_LONG_VOCALIC t0
  obtain ⟨ts2, t2, g2, r2, u2⟩ := cmp_step cmp_TWO_POINT_SIGN t1
  obtain ⟨r3, u3⟩ := ind_stage t2
  have t3 := addInd_typS t2
  obtain ⟨ts4, t4, g4, r4, u4⟩ := cmp_step cmp_INDEPENDENT_VOWEL t3
  obtain ⟨ts5, t5, g5, r5, u5⟩ := cmp_step cmp_COMPOSITE_CONSONANT t4
  obtain ⟨ts6, t6, g6, r6, u6⟩ := cmp_step cmp_OM_CND t5
  have n0 : NoFac [] ts0 := fun f hf => by cases hf
  have n1 := noFac_step tc1 cmp_LONG_VOCALIC.2.2 t0.plain t1.plain n0 r1
  have n2 := noFac_step tc2 cmp_TWO_POINT_SIGN.2.2 t1.plain t2.plain n1 r2
  have n3 : NoFac F2 (addInd ts2) := by
    rcases addInd_cases ts2 t2 with ⟨h1, _⟩ | ⟨h1, _⟩
    · rw [h1]; exact noFac_ind n2
    · rw [h1]; exact n2
  have n4 := noFac_step tc4 cmp_INDEPENDENT_VOWEL.2.2 t3.1.plain t4.1.plain n3 r4
  have n5 := noFac_step tc5 cmp_COMPOSITE_CONSONANT.2.2 t4.1.plain t5.1.plain n4 r5
  have n6 := noFac_step tc6 cmp_OM_CND.2.2 t5.1.plain t6.1.plain n5 r6
  rw [isoToTypRules, ind_eq]
  refine ⟨ts6, t6, n6, ?_, ?_, ?_⟩
  · simp only [compose_cons]
    exact ⟨_, r0, _, r1, _, r2, _, r3, _, r4, _, r5, _, r6, rfl⟩
  · simp only [compose_cons]
    rintro z ⟨z0, h0, z1, h1, z2, h2, z3, h3, z4, h4, z5, h5, z6, h6, rfl⟩
    have := readGlyph_det m _ _ _ h0 r0; subst this
    have := u1 _ h1; subst this
    have := u2 _ h2; subst this
    have := u3 _ h3; subst this
    have := u4 _ h4; subst this
    have := u5 _ h5; subst this
    exact u6 _ h6
  · rw [g6, g5, g4]
    rcases addInd_cases ts2 t2 with ⟨h1, s, hs, hv⟩ | ⟨h1, _⟩
    · right
      rw [h1, List.flatMap_cons, ind_facts.2.2.2.2, g2, g1, g0]
      refine ⟨rfl, ?_⟩
      rw [← g0, ← g1, ← g2]
      rw [isVs, Bool.and_eq_true, List.any_eq_true] at hv
      obtain ⟨⟨c, hc, h2⟩, h3⟩ := hv
      have h2' := seq_eq.1 h2
      subst h2'
      refine ⟨c, hc, ?_, ?_⟩
      · intro he
        rw [he] at h3
        cases h3
      · cases ts2 with
        | nil => cases hs
        | cons a ts2 =>
          injection hs with hs
          subst hs
          rw [List.flatMap_cons]
          have hch : c ∈ Brh.CHAR := vs_char hc
          rw [show gl (.g c.typ) = c.glyph from (char_ok hch).1]
          exact List.prefix_append _ _
    · left; rw [h1, g2, g1, g0]

/-- Factors of texts. -/
theorem noFac_text {cs : List Chr} (hc : tCheck cs = true) {fs : List (List Tok)}
    (hs : ∀ f ∈ cmpF cs, f ∈ fs) {ts : List Tok} (hts : Plain ts) (h : NoFac fs ts) {c : Chr}
    (hm : c ∈ cs) : ¬ c.cmp <:+: enc ts := by
  rintro ⟨u, v, he⟩
  have hmem : ((toks c.cmp).getD [], Tok.g c.typ) ∈ tRules cs := List.mem_map.2 ⟨c, hm, rfl⟩
  have h1 := List.all_eq_true.1 hc c hm
  rw [Bool.and_eq_true] at h1
  rw [seq_eq.1 h1.1] at he
  obtain ⟨⟨s, l', h2⟩, h3⟩ := tCheck_g hc _ _ hmem
  rw [h2] at he h3
  obtain ⟨ut, vt, h4, _, _⟩ := enc_factor hts h3 (fun _ h => by cases h) he.symm
  refine h _ (hs _ (List.mem_map.2 ⟨_, hmem, rfl⟩)) ⟨ut, vt, ?_⟩
  rw [h4]
  simp only [h2]

end Nisaba.NT
