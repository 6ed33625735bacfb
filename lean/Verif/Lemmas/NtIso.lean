import Verif.Lemmas.NtOut
/-!
# From texts in the ISO romanization to default pronunciations
-/
namespace Nisaba.NT

/-! ## Reading -/

theorem labels_append (m : Mode) (a b : Str) : m.labels (a ++ b) = m.labels a ++ m.labels b := by
  cases m
  · exact List.flatMap_append
  · rfl

theorem labels_nil (m : Mode) : m.labels [] = [] := by cases m <;> rfl

/-- What `read_glyph` reads. -/
theorem readGlyph_iff (m : Mode) (ds : List Chr) (x z : Str) :
    readGlyph m ds x z ↔ ∃ cs : List Chr, (∀ c ∈ cs, c ∈ ds) ∧ x = m.labels (cs.flatMap Chr.glyph) ∧
      z = cs.flatMap Chr.gr := by
  have hu : ∀ u v, unionR (ds.map (fun c => cross (str (m.labels c.glyph)) (str c.gr))) u v ↔
      ∃ c ∈ ds, u = m.labels c.glyph ∧ v = c.gr := by
    intro u v
    constructor
    · rintro ⟨r, hr, h⟩
      obtain ⟨c, hc, rfl⟩ := List.mem_map.1 hr
      exact ⟨c, hc, h.1, h.2⟩
    · rintro ⟨c, hc, h1, h2⟩
      exact ⟨_, List.mem_map.2 ⟨c, hc, rfl⟩, h1, h2⟩
  constructor
  · intro h
    change StarR _ x z at h
    induction h with
    | nil => exact ⟨[], by simp, by simp [labels_nil], rfl⟩
    | cons h k ih =>
      obtain ⟨cs, h1, rfl, rfl⟩ := ih
      obtain ⟨c, hc, rfl, rfl⟩ := (hu _ _).1 h
      refine ⟨c :: cs, ?_, by rw [List.flatMap_cons, labels_append], rfl⟩
      intro d hd
      rw [List.mem_cons] at hd
      rcases hd with rfl | hd
      exacts [hc, h1 d hd]
  · rintro ⟨cs, h1, rfl, rfl⟩
    show StarR _ _ _
    induction cs with
    | nil => simpa [labels_nil] using StarR.nil
    | cons c cs ih =>
      rw [List.flatMap_cons, labels_append, List.flatMap_cons]
      exact .cons ((hu _ _).2 ⟨c, h1 c (by simp), rfl, rfl⟩) (ih fun d hd => h1 d (by simp [hd]))

theorem detCheck_pre' {rs : List (Str × Str)} (h : detCheck false rs = true) {l r l' r' : Str}
    (hm : (l, r) ∈ rs) (hm' : (l', r') ∈ rs) (hp : l <+: l') : l = l' ∧ r = r' := by
  have h1 := List.all_eq_true.1 h _ hm
  rw [Bool.and_eq_true] at h1
  have h2 := List.all_eq_true.1 h1.2 _ hm'
  simp only [pre_iff.2 hp, cond_true, Bool.or_eq_true, Bool.and_eq_true] at h2
  rcases h2 with ⟨h3, h4⟩ | ⟨h3, _⟩
  · exact ⟨seq_eq.1 h3, seq_eq.1 h4⟩
  · cases h3

theorem starR_det' {rs : List (Str × Str)} (h : detCheck false rs = true) :
    Det (StarR (rules rs)) := by
  refine starR_det (fun u x hm => detCheck_ne h hm) ?_ ?_
  · intro u x y hx hy
    exact (detCheck_pre' h hx hy (List.prefix_refl _)).2
  · intro u x w x' hx hx' hw
    have := (detCheck_pre' h hx hx' (List.prefix_append _ _)).1
    exact absurd (List.append_right_eq_self.1 this.symm) hw

set_option maxRecDepth 100000 in
theorem read_det : detCheck false (Brh.SINGLE_POINT.map fun c => (Mode.utf8.labels c.glyph, c.gr)) =
    true ∧ detCheck false (Brh.SINGLE_POINT.map fun c => (Mode.byte.labels c.glyph, c.gr)) = true := by
  constructor <;> decide +kernel

theorem readGlyph_det (m : Mode) : Det (readGlyph m Brh.SINGLE_POINT) := by
  rw [readGlyph, unionR_map]
  cases m
  · exact starR_det' read_det.2
  · exact starR_det' read_det.1

/-! ## Sequences of graphemes -/

/-- The character of a name. -/
def chOf (s : Str) : Chr := (Brh.CHAR.find? fun c => seq c.typ s).getD ⟨[], [], [], [], []⟩

/-- Sequences of graphemes of the inventory. -/
def Typ (ts : List Tok) : Prop := ∀ a ∈ ts, ∃ c ∈ Brh.CHAR, a = .g c.typ

/-- The glyph of a symbol. -/
def gl : Tok → Str
  | .g s => (chOf s).glyph
  | _ => []

set_option maxRecDepth 100000 in
theorem char_names : (Brh.CHAR.all fun c => seq c.glyph (chOf c.typ).glyph &&
    (seq c.ph (chOf c.typ).ph && nameB c.typ)) = true := by decide +kernel

theorem char_ok {c : Chr} (h : c ∈ Brh.CHAR) :
    (chOf c.typ).glyph = c.glyph ∧ (chOf c.typ).ph = c.ph ∧ (Tok.g c.typ).plain := by
  have h1 := List.all_eq_true.1 char_names c h
  rw [Bool.and_eq_true, Bool.and_eq_true] at h1
  exact ⟨(seq_eq.1 h1.1).symm, (seq_eq.1 h1.2.1).symm, nameB_iff.1 h1.2.2⟩

theorem Typ.plain {ts : List Tok} (h : Typ ts) : Plain ts := by
  intro a ha
  obtain ⟨c, hc, rfl⟩ := h a ha
  exact (char_ok hc).2.2

theorem typ_append {xs ys : List Tok} : Typ (xs ++ ys) ↔ Typ xs ∧ Typ ys := by
  simp only [Typ, List.mem_append]
  constructor
  · intro h; exact ⟨fun a ha => h a (.inl ha), fun a ha => h a (.inr ha)⟩
  · rintro ⟨h, k⟩ a (ha | ha)
    exacts [h a ha, k a ha]

theorem sp_char {c : Chr} (h : c ∈ Brh.SINGLE_POINT) : c ∈ Brh.CHAR := by
  simp only [Brh.CHAR, List.mem_append]; exact .inl (.inl (.inl h))

theorem read_typ {cs : List Chr} (h : ∀ c ∈ cs, c ∈ Brh.CHAR) :
    cs.flatMap Chr.gr = enc (cs.map fun c => .g c.typ) ∧ Typ (cs.map fun c => .g c.typ) ∧
      (cs.map fun c => Tok.g c.typ).flatMap gl = cs.flatMap Chr.glyph := by
  refine ⟨?_, ?_, ?_⟩
  · rw [enc, List.flatMap_map]; rfl
  · intro a ha
    obtain ⟨c, hc, rfl⟩ := List.mem_map.1 ha
    exact ⟨c, h c hc, rfl⟩
  · rw [List.flatMap_map]
    induction cs with
    | nil => rfl
    | cons c cs ih =>
      rw [List.flatMap_cons, List.flatMap_cons, ih fun d hd => h d (by simp [hd])]
      rw [show gl (.g c.typ) = c.glyph from (char_ok (h c (by simp))).1]

/-- A dependent vowel sign that becomes independent at the start of a text. -/
def isVs (s : Str) : Bool := (Brh.VOWEL_SIGN.any fun c => seq c.typ s) && !seq s a!"aan"

def StartOk (ts : List Tok) : Prop := ∀ s, ts.head? = some (.g s) → isVs s = false

def TypS (ts : List Tok) : Prop := Typ ts ∧ StartOk ts

/-! ## Composition -/

def cmpRules (cs : List Chr) : List (Str × Str) := cs.map fun c => (c.cmp, c.gr)

theorem composeFromGr_eq (cs : List Chr) :
    composeFromGr cs = cdrewrite (rules (cmpRules cs)) (str []) (str []) := by
  rw [composeFromGr, rewriteLs, List.map_map]
  have := unionR_map cs Chr.cmp Chr.gr
  rw [cmpRules, ← this]
  rfl

/-- What is needed of a composite character. -/
def cmpOk' (c : Chr) : Option (List Tok) → Bool
  | some (.g s :: ts) => seq c.cmp (enc (.g s :: ts)) && (plainB (.g s :: ts) &&
      (seq ((Tok.g s :: ts).flatMap gl) c.glyph && Brh.CHAR.any fun d => seq d.typ c.typ))
  | _ => false

def cmpOk (c : Chr) : Bool := cmpOk' c (toks c.cmp)

theorem cmpOk_rule {c : Chr} (h : cmpOk c = true) : ∃ s ts d, d ∈ Brh.CHAR ∧ d.typ = c.typ ∧
    c.cmp = enc (.g s :: ts) ∧ Plain (.g s :: ts) ∧ (Tok.g s :: ts).flatMap gl = c.glyph := by
  rw [cmpOk] at h
  generalize toks c.cmp = x at h
  cases x with
  | none => cases h
  | some ts =>
    cases ts with
    | nil => cases h
    | cons a ts =>
      cases a with
      | g s =>
        rw [cmpOk', Bool.and_eq_true, Bool.and_eq_true, Bool.and_eq_true, List.any_eq_true] at h
        obtain ⟨h1, h2, h3, d, hd, h4⟩ := h
        exact ⟨s, ts, d, hd, seq_eq.1 h4, seq_eq.1 h1, plainB_iff.1 h2, seq_eq.1 h3⟩
      | eq => cases h
      | p s => cases h
      | t s => cases h

/-- A stage of composition: outputs, glyphs, existence and uniqueness. -/
def Cmp (P : List Tok → Prop) (R : Rel) : Prop := Closed gl P P R ∧ Tot P R ∧ Det R

theorem cmp_of_check {cs : List Chr} (hc : (cs.all fun c => cmpOk c &&
    seq c.glyph (chOf c.typ).glyph) = true) (hd : detCheck false (cmpRules cs) = true) :
    Cmp Typ (composeFromGr cs) := by
  rw [composeFromGr_eq]
  have hr : ∀ l r, (l, r) ∈ cmpRules cs → RuleOk gl Typ (ctxOf (str []) (str [])).right l r := by
    intro l r hm
    obtain ⟨c, hc', he⟩ := List.mem_map.1 hm
    injection he with h1 h2
    subst h1; subst h2
    have h1 := List.all_eq_true.1 hc c hc'
    rw [Bool.and_eq_true] at h1
    obtain ⟨s, ts, d, hd, h2, h3, h4, h5⟩ := cmpOk_rule h1.1
    refine ⟨.g s, ts, [.g c.typ], h3, by simp [enc]; rfl, h4, (fun _ h => by cases h), ?_, ?_⟩
    · rw [h5]
      simp only [List.flatMap_cons, List.flatMap_nil, List.append_nil]
      exact seq_eq.1 h1.2
    · intro o q _ hP
      rw [typ_append, typ_append] at hP ⊢
      refine ⟨⟨hP.1.1, ?_⟩, hP.2⟩
      intro a ha
      rw [List.mem_singleton] at ha
      exact ⟨d, hd, by rw [ha, h2]⟩
  exact ⟨closed_cdrewrite (fun _ h => h.plain) hr, tot_cdrewrite (fun _ h => h.plain) hr,
    det_of_check hd _ _ (fun hb => by cases hb)⟩

theorem cmpS_of_check {cs : List Chr} (hc : (cs.all fun c => cmpOk c &&
    (seq c.glyph (chOf c.typ).glyph && !isVs c.typ)) = true)
    (hd : detCheck false (cmpRules cs) = true) : Cmp TypS (composeFromGr cs) := by
  rw [composeFromGr_eq]
  have hr : ∀ l r, (l, r) ∈ cmpRules cs → RuleOk gl TypS (ctxOf (str []) (str [])).right l r := by
    intro l r hm
    obtain ⟨c, hc', he⟩ := List.mem_map.1 hm
    injection he with h1 h2
    subst h1; subst h2
    have h1 := List.all_eq_true.1 hc c hc'
    rw [Bool.and_eq_true, Bool.and_eq_true] at h1
    obtain ⟨s, ts, d, hd, h2, h3, h4, h5⟩ := cmpOk_rule h1.1
    refine ⟨.g s, ts, [.g c.typ], h3, by simp [enc]; rfl, h4, (fun _ h => by cases h), ?_, ?_⟩
    · rw [h5]
      simp only [List.flatMap_cons, List.flatMap_nil, List.append_nil]
      exact seq_eq.1 h1.2.1
    · intro o q _ hP
      refine ⟨?_, ?_⟩
      · have hP' := hP.1
        rw [typ_append, typ_append] at hP' ⊢
        refine ⟨⟨hP'.1.1, ?_⟩, hP'.2⟩
        intro a ha
        rw [List.mem_singleton] at ha
        exact ⟨d, hd, by rw [ha, h2]⟩
      · intro s' hs'
        cases o with
        | nil =>
          simp only [List.nil_append, List.cons_append, List.head?_cons, Option.some.injEq,
            Tok.g.injEq] at hs'
          subst hs'
          simpa using h1.2.2
        | cons b o => exact hP.2 s' hs'
  exact ⟨closed_cdrewrite (fun _ h => h.1.plain) hr, tot_cdrewrite (fun _ h => h.1.plain) hr,
    det_of_check hd _ _ (fun hb => by cases hb)⟩

section
set_option maxRecDepth 100000

theorem cmp_LONG_VOCALIC : Cmp Typ (composeFromGr Brh.LONG_VOCALIC) :=
  cmp_of_check (by decide +kernel) (by decide +kernel)
theorem cmp_TWO_POINT_SIGN : Cmp Typ (composeFromGr Brh.TWO_POINT_SIGN) :=
  cmp_of_check (by decide +kernel) (by decide +kernel)
theorem cmp_INDEPENDENT_VOWEL : Cmp TypS (composeFromGr Brh.INDEPENDENT_VOWEL) :=
  cmpS_of_check (by decide +kernel) (by decide +kernel)
theorem cmp_COMPOSITE_CONSONANT : Cmp TypS (composeFromGr Brh.COMPOSITE_CONSONANT) :=
  cmpS_of_check (by decide +kernel) (by decide +kernel)
theorem cmp_OM_CND : Cmp TypS (composeFromGr (Brh.OM ++ Brh.CND)) :=
  cmpS_of_check (by decide +kernel) (by decide +kernel)

end

/-! ## Independent vowels -/

def indL : Lang := cat BOW SKIP
def indR : Lang := cat SKIP (minus Brh.lVOWEL_S (str (Brh.gr a!"AAN")))

set_option maxRecDepth 100000 in
theorem ind_names : (seq (Brh.gr a!"IND") (enc [.g a!"ind"]) && (seq (Brh.gr a!"AAN") (enc [.g a!"aan"]) &&
    ((Brh.VOWEL_SIGN.all fun c => nameB c.typ && !seq c.typ a!"ind") &&
      ((Brh.CHAR.any fun c => seq c.typ a!"ind") && seq (gl (.g a!"ind")) [46])))) = true := by
  decide +kernel

theorem ind_facts : Brh.gr a!"IND" = enc [.g a!"ind"] ∧ Brh.gr a!"AAN" = enc [.g a!"aan"] ∧
    (∀ c ∈ Brh.VOWEL_SIGN, (Tok.g c.typ).plain ∧ c.typ ≠ a!"ind") ∧
    (∃ c ∈ Brh.CHAR, c.typ = a!"ind") ∧ gl (.g a!"ind") = [46] := by
  have h := ind_names
  rw [Bool.and_eq_true, Bool.and_eq_true, Bool.and_eq_true, Bool.and_eq_true, List.any_eq_true] at h
  obtain ⟨h1, h2, h3, ⟨c, hc, h4⟩, h5⟩ := h
  refine ⟨seq_eq.1 h1, seq_eq.1 h2, ?_, ⟨c, hc, seq_eq.1 h4⟩, seq_eq.1 h5⟩
  intro d hd
  have h6 := List.all_eq_true.1 h3 d hd
  rw [Bool.and_eq_true] at h6
  refine ⟨nameB_iff.1 h6.1, fun he => ?_⟩
  rw [seq_eq.2 he] at h6
  exact absurd h6.2 (by decide)

/-- The insertion of the sign of independent vowels. -/
def indRel : Rel := cdrewrite (cross (str []) (str (enc [.g a!"ind"]))) indL indR

theorem ind_eq : rewriteWordInitial (str []) (str (Brh.gr a!"IND"))
    (some (minus Brh.lVOWEL_S (str (Brh.gr a!"AAN")))) = indRel := by
  rw [ind_facts.1]; rfl

/-- Words of skipped parts that do not contain the sign `=` are empty. -/
theorem skipLeft_eq {y : Str} (h : SKIP_LEFT_SIDE y) (hy : 61 ∉ y) : y = [] := by
  rcases h with ⟨u, v, rfl, _, rfl⟩ | rfl
  · exact absurd (by simp [EQ]) hy
  · rfl

theorem skip_eq {y : Str} (h : SKIP y) (hy : 61 ∉ y) : y = [] := by
  rcases h with h | ⟨u, v, rfl, rfl, _⟩ | rfl
  · exact skipLeft_eq h hy
  · exact absurd (by simp [EQ]) hy
  · rfl

theorem indL_iff {out : Str} (h1 : 61 ∉ out) (h2 : bos ∉ out) : (ctxOf indL indR).left out ↔ out = [] := by
  constructor
  · rintro ⟨p, x, he, u, v, rfl, ⟨w, t, rfl, rfl, ht⟩, hv⟩
    cases p with
    | nil =>
      injection he with _ he
      change out = t ++ v at he
      have ht' : t = [] := by
        rcases ht with ht | rfl
        · exact skipLeft_eq ht (fun hc => h1 (by rw [he]; simp [hc]))
        · rfl
      have hv' : v = [] := skip_eq hv (fun hc => h1 (by rw [he]; simp [hc]))
      rw [he, ht', hv']; rfl
    | cons b p =>
      injection he with _ he
      exact absurd (by rw [he]; simp) h2
  · rintro rfl
    exact ⟨[], [bos], rfl, [bos], [], rfl, ⟨[bos], [], rfl, rfl, .inr rfl⟩, .inl (.inr rfl)⟩

theorem typ_chars {ts : List Tok} (h : Typ ts) {c : Nat} (hc : c ∈ enc ts) : c ≠ 61 ∧ c < 256 := by
  simp only [enc, List.mem_flatMap] at hc
  obtain ⟨a, ha, hc⟩ := hc
  obtain ⟨d, hd, rfl⟩ := h a ha
  have hp := (char_ok hd).2.2
  simp only [enc1, encloseGrapheme, LT, GT, List.mem_cons, List.mem_append, List.not_mem_nil,
    or_false] at hc
  rcases hc with rfl | hc | rfl
  · decide
  · have := nameChar_lt (hp c hc); omega
  · decide

theorem indR_iff {ts : List Tok} (h : Typ ts) : (ctxOf indL indR).right (enc ts) ↔
    ∃ s, ts.head? = some (.g s) ∧ isVs s = true := by
  have hn := ind_facts
  constructor
  · rintro ⟨x, p, he, u, v, rfl, hu, ⟨c, hc, rfl⟩, hv⟩
    have hu' : u = [] := skip_eq hu (fun hc => by
      have : 61 ∈ enc ts ++ [eos] := by rw [he]; simp [hc]
      rw [List.mem_append, List.mem_singleton] at this
      rcases this with h1 | h1
      · exact (typ_chars h h1).1 rfl
      · exact absurd h1 (by decide))
    subst hu'
    rw [List.nil_append] at he
    have hcp := (hn.2.2.1 c hc).1
    cases ts with
    | nil =>
      have : (60 : Nat) = eos := by
        have := congrArg List.head? he
        injection this with this
        exact this.symm
      exact absurd this (by decide)
    | cons a ts =>
      obtain ⟨d, hd, rfl⟩ := h a (by simp)
      rw [enc_cons, List.append_assoc] at he
      obtain ⟨h1, _⟩ := enc1_inj (char_ok hd).2.2 (b := .g c.typ) hcp (x := enc ts ++ [eos]) (y := p) he
      injection h1 with h1
      refine ⟨d.typ, rfl, ?_⟩
      rw [isVs, Bool.and_eq_true]
      refine ⟨List.any_eq_true.2 ⟨c, hc, seq_eq.2 h1.symm⟩, ?_⟩
      rw [Bool.not_eq_true']
      apply Bool.eq_false_iff.2
      intro hs
      apply hv
      rw [hn.2.1, ← seq_eq.1 hs, h1]
      simp [enc]; rfl
  · rintro ⟨s, hs, hv⟩
    rw [isVs, Bool.and_eq_true, List.any_eq_true] at hv
    obtain ⟨⟨c, hc, h1⟩, h2⟩ := hv
    have h1' := seq_eq.1 h1
    subst h1'
    cases ts with
    | nil => cases hs
    | cons a ts =>
      injection hs with hs
      subst hs
      refine ⟨c.gr, enc ts ++ [eos], by rw [enc_cons, List.append_assoc]; rfl, [], c.gr, rfl,
        .inl (.inr rfl), ⟨c, hc, rfl⟩, ?_⟩
      intro he
      change c.gr = Brh.gr a!"AAN" at he
      rw [hn.2.1] at he
      have := enc_inj (ts := [.g c.typ]) (us := [.g a!"aan"]) (by
        intro a ha; rw [List.mem_singleton] at ha; subst ha; exact (hn.2.2.1 c hc).1)
        (plainB_iff.1 rfl) (by rw [← he]; simp [enc]; rfl)
      injection this with this _
      injection this with this
      rw [this] at h2
      exact absurd h2 (by decide)

/-- After the start of a text nothing is inserted. -/
theorem ind_copy {r : Str} (rest out : Str) (ho : out ≠ []) (h1 : 61 ∉ out ++ rest)
    (h2 : bos ∉ out ++ rest) :
    Cdr (cross (str []) (str r)) (ctxOf indL indR) out rest (out ++ rest) := by
  have hl : ∀ out' : Str, out' <+: out ++ rest → out' ≠ [] → ¬ (ctxOf indL indR).left out' := by
    rintro out' ⟨w, hw⟩ hne hc
    exact hne ((indL_iff (fun h => h1 (by rw [← hw]; simp [h])) (fun h => h2 (by rw [← hw]; simp [h]))).1 hc)
  induction rest generalizing out with
  | nil => rw [List.append_nil]; exact .done fun r _ hc => absurd hc (hl out (by simp) ho)
  | cons c rest ih =>
    refine .copy (fun l r rest' _ _ hc => absurd hc (hl out (List.prefix_append _ _) ho)) ?_
    have e : out ++ c :: rest = (out ++ [c]) ++ rest := by simp
    rw [e] at h1 h2 hl ⊢
    exact ih (out ++ [c]) (by simp) h1 h2 hl

/-- The sequence with the sign of independent vowels, if needed. -/
def addInd (ts : List Tok) : List Tok :=
  match ts with
  | .g s :: ts => bif isVs s then .g a!"ind" :: .g s :: ts else .g s :: ts
  | ts => ts

theorem addInd_cases (ts : List Tok) (h : Typ ts) :
    (addInd ts = .g a!"ind" :: ts ∧ ∃ s, ts.head? = some (.g s) ∧ isVs s = true) ∨
    (addInd ts = ts ∧ StartOk ts) := by
  cases ts with
  | nil => exact .inr ⟨rfl, fun s hs => by cases hs⟩
  | cons a ts =>
    obtain ⟨c, hc, rfl⟩ := h a (by simp)
    cases hv : isVs c.typ with
    | true => exact .inl ⟨by rw [addInd, hv]; rfl, c.typ, rfl, hv⟩
    | false =>
      refine .inr ⟨by rw [addInd, hv]; rfl, ?_⟩
      intro s hs
      injection hs with hs
      injection hs with hs
      rw [← hs]; exact hv

theorem typ_ind {ts : List Tok} (h : Typ ts) : Typ (.g a!"ind" :: ts) := by
  intro a ha
  rw [List.mem_cons] at ha
  rcases ha with rfl | ha
  · obtain ⟨c, hc, he⟩ := ind_facts.2.2.2.1
    exact ⟨c, hc, by rw [he]⟩
  · exact h a ha

theorem isVs_ind : isVs a!"ind" = false := by
  have h := ind_facts.2.2.1
  rw [isVs, Bool.and_eq_false_iff]
  left
  apply Bool.eq_false_iff.2
  intro hc
  rw [List.any_eq_true] at hc
  obtain ⟨c, hc, h1⟩ := hc
  exact (h c hc).2 (seq_eq.1 h1)

theorem addInd_typS {ts : List Tok} (h : Typ ts) : TypS (addInd ts) := by
  rcases addInd_cases ts h with ⟨h1, _⟩ | ⟨h1, h2⟩
  · rw [h1]
    refine ⟨typ_ind h, ?_⟩
    intro s hs
    injection hs with hs
    injection hs with hs
    rw [← hs]
    exact isVs_ind
  · rw [h1]; exact ⟨h, h2⟩

theorem ind_stage {ts : List Tok} (h : Typ ts) :
    indRel (enc ts) (enc (addInd ts)) ∧ ∀ z, indRel (enc ts) z → z = enc (addInd ts) := by
  have hex : indRel (enc ts) (enc (addInd ts)) := by
    refine ⟨enc_over h.plain, enc_over (addInd_typS h).1.plain, ?_⟩
    rcases addInd_cases ts h with ⟨h1, s, hs, hv⟩ | ⟨h1, h2⟩
    · rw [h1, enc_cons]
      have hr := (indR_iff h).2 ⟨s, hs, hv⟩
      have hl := (indL_iff (out := []) (by simp) (by simp)).2 rfl
      cases hx : enc ts with
      | nil =>
        cases ts with
        | nil => cases hs
        | cons a ts => rw [enc_cons] at hx; simp [enc1_ne] at hx
      | cons c rest =>
        rw [hx] at hr
        have hT := typ_ind h
        refine .ins ⟨rfl, rfl⟩ hl hr ?_
        have := ind_copy (r := enc [.g a!"ind"]) rest ([] ++ enc [.g a!"ind"] ++ [c]) (by simp)
          (fun hc => (typ_chars hT (c := 61) (by rw [enc_cons, hx]; simpa [enc] using hc)).1 rfl)
          (fun hc => absurd (typ_chars hT (c := bos) (by rw [enc_cons, hx]; simpa [enc] using hc)).2
            (by decide))
        rw [enc_cons (.g a!"ind") ts, hx]
        simpa only [enc, List.flatMap_cons, List.flatMap_nil, List.append_nil, List.nil_append, List.append_assoc, List.cons_append] using this
    · rw [h1]
      have hnr : ¬ (ctxOf indL indR).right (enc ts) := by
        intro hc
        obtain ⟨s, hs, hv⟩ := (indR_iff h).1 hc
        rw [h2 s hs] at hv
        cases hv
      cases hx : enc ts with
      | nil => rw [hx] at hnr; exact .done fun r _ _ hc => hnr hc
      | cons c rest =>
        refine .copy ?_ ?_
        · rintro l r rest' ⟨rfl, _⟩ he _ hc
          rw [hx, he] at hnr
          exact hnr hc
        · have := ind_copy (r := enc [.g a!"ind"]) rest [c] (by simp)
            (fun hc => (typ_chars h (c := 61) (by rw [hx]; simpa using hc)).1 rfl)
            (fun hc => absurd (typ_chars h (c := bos) (by rw [hx]; simpa using hc)).2 (by decide))
          simpa using this
  exact ⟨hex, fun z hz => cdr_ins_det (fun l x hlx => ⟨hlx.1, hlx.2⟩) hz.2.2 hex.2.2⟩

/-! ## All stages -/

/-- Texts in the ISO romanization: sequences of characters of the inventory. -/
def IsoCs (cs : List Chr) : Prop := ∀ c ∈ cs, c ∈ Brh.SINGLE_POINT

theorem cmp_step {P : List Tok → Prop} {R : Rel} (h : Cmp P R) {ts : List Tok} (hp : P ts) :
    ∃ us, P us ∧ us.flatMap gl = ts.flatMap gl ∧ R (enc ts) (enc us) ∧
      ∀ z, R (enc ts) z → z = enc us := by
  obtain ⟨z, hz⟩ := h.2.1 ts hp
  obtain ⟨us, rfl, h1, h2⟩ := h.1 ts hp z hz
  exact ⟨us, h1, h2, hz, fun z' hz' => h.2.2 _ _ _ hz' hz⟩

theorem vs_glyph : (Brh.VOWEL_SIGN.all fun c => match gl (.g c.typ) with
    | d :: _ => !Nat.beq d 46 | [] => false) = true := by
  set_option maxRecDepth 100000 in decide +kernel

theorem iso_stage (m : Mode) {cs : List Chr} (h : IsoCs cs) :
    ∃ ts, TypS ts ∧ compose (isoToTypRules m) (m.labels (cs.flatMap Chr.glyph)) (enc ts) ∧
      (∀ z, compose (isoToTypRules m) (m.labels (cs.flatMap Chr.glyph)) z → z = enc ts) ∧
      (ts.flatMap gl = cs.flatMap Chr.glyph ∨
        ts.flatMap gl = 46 :: cs.flatMap Chr.glyph ∧ (cs.flatMap Chr.glyph).head? ≠ some 46) := by
  obtain ⟨e0, t0, g0⟩ := read_typ fun c hc => sp_char (h c hc)
  have r0 := (readGlyph_iff m Brh.SINGLE_POINT _ _).2 ⟨cs, h, rfl, rfl⟩
  rw [e0] at r0
  generalize (cs.map fun c => Tok.g c.typ) = ts0 at *
  obtain ⟨ts1, t1, g1, r1, u1⟩ := cmp_step cmp_LONG_VOCALIC t0
  obtain ⟨ts2, t2, g2, r2, u2⟩ := cmp_step cmp_TWO_POINT_SIGN t1
  obtain ⟨r3, u3⟩ := ind_stage t2
  have t3 := addInd_typS t2
  obtain ⟨ts4, t4, g4, r4, u4⟩ := cmp_step cmp_INDEPENDENT_VOWEL t3
  obtain ⟨ts5, t5, g5, r5, u5⟩ := cmp_step cmp_COMPOSITE_CONSONANT t4
  obtain ⟨ts6, t6, g6, r6, u6⟩ := cmp_step cmp_OM_CND t5
  rw [isoToTypRules, ind_eq]
  refine ⟨ts6, t6, ?_, ?_, ?_⟩
  · simp only [compose_cons]
    exact ⟨_, r0, _, r1, _, r2, _, r3, _, r4, _, r5, _, r6, rfl⟩
  · simp only [compose_cons]
    rintro z ⟨z0, h0, z1, h1, z2, h2, z3, h3, z4, h4, z5, h5, z6, h6, rfl⟩
    have := readGlyph_det m _ _ _ h0 r0; subst this
    have := u1 _ h1; subst this
    have := u2 _ h2; subst this
    have := u3 _ h3; subst this
    have := u4 _ h4; subst this
    have := u5 _ h5; subst this
    exact u6 _ h6
  · rw [g6, g5, g4]
    rcases addInd_cases ts2 t2 with ⟨h1, s, hs, hv⟩ | ⟨h1, _⟩
    · right
      rw [h1, List.flatMap_cons, ind_facts.2.2.2.2, g2, g1, g0]
      refine ⟨rfl, ?_⟩
      rw [← g0, ← g1, ← g2]
      rw [isVs, Bool.and_eq_true, List.any_eq_true] at hv
      obtain ⟨⟨c, hc, h2⟩, _⟩ := hv
      have h2' := seq_eq.1 h2
      subst h2'
      cases ts2 with
      | nil => cases hs
      | cons a ts2 =>
        injection hs with hs
        subst hs
        have h3 := List.all_eq_true.1 vs_glyph c hc
        rw [List.flatMap_cons]
        generalize gl (.g c.typ) = y at h3 ⊢
        cases y with
        | nil => cases h3
        | cons d y =>
          intro he
          injection he with he
          subst he
          simp at h3
    · left; rw [h1, g2, g1, g0]

/-- Only texts of the inventory are read. -/
theorem iso_only {m : Mode} {rs : List Rel} {x z : Str} (h : compose (isoToTypRules m ++ rs) x z) :
    ∃ cs, IsoCs cs ∧ x = m.labels (cs.flatMap Chr.glyph) := by
  rw [isoToTypRules, List.cons_append, compose_cons] at h
  obtain ⟨y, hy, _⟩ := h
  obtain ⟨cs, h1, h2, _⟩ := (readGlyph_iff ..).1 hy
  exact ⟨cs, h1, h2⟩

/-! ## Default pronunciations -/

/-- The alignment of a grapheme. -/
def alTok : Tok → List Tok
  | .g s => .g s :: .eq :: (toks (chOf s).ph).getD []
  | _ => []

def txnTab : List (Str × Str) := Brh.CHAR.map fun c => (c.gr, c.gr ++ ([EQ] ++ c.ph))

theorem typToTxn_eq : G2p.TYP_TO_TXN = StarR (rules txnTab) := by
  rw [G2p.TYP_TO_TXN, txnTab, ← unionR_map]
  simp only [assign, align, cat_str]

def phOk (c : Chr) : Bool := seq c.ph (enc ((toks c.ph).getD [])) &&
  ([M1, M1h, M1t].all fun cfg => acc (run cfg .c (alTok (.g c.typ))))

set_option maxRecDepth 100000 in
theorem ph_ok : Brh.CHAR.all phOk = true := by decide +kernel

/-- Graphemes with a diphthong. -/
def diNames : List Str := [a!"ai", a!"au", a!"ai_i", a!"au_i"]
def phOk2 (c : Chr) : Bool := diNames.any (seq c.typ) || acc (run M2 .c (alTok (.g c.typ)))
set_option maxRecDepth 100000 in
theorem ph_ok2 : Brh.CHAR.all phOk2 = true := by decide +kernel

def phR : Tok → Bool
  | .p _ => true
  | _ => false
set_option maxRecDepth 100000 in
theorem ph_shape : (Brh.CHAR.all fun c => ((toks c.ph).getD []).all phR) = true := by decide +kernel

theorem alTok_enc {c : Chr} (h : c ∈ Brh.CHAR) :
    enc (alTok (.g c.typ)) = c.gr ++ ([EQ] ++ c.ph) := by
  have h1 := List.all_eq_true.1 ph_ok c h
  rw [phOk, Bool.and_eq_true] at h1
  rw [alTok, enc_cons, enc_cons, (char_ok h).2.1, ← seq_eq.1 h1.1]
  rfl

theorem srun_phR {ts : List Tok} (h : ts.all phR = true) :
    srun .r ts = .r ∧ ts.flatMap gproj = [] := by
  induction ts with
  | nil => exact ⟨rfl, rfl⟩
  | cons a ts ih =>
    rw [List.all_cons, Bool.and_eq_true] at h
    cases a with
    | p s => exact ⟨(ih h.2).1, by simpa [gproj] using (ih h.2).2⟩
    | g s => cases h.1
    | eq => cases h.1
    | t s => cases h.1

theorem al_shape {ts : List Tok} (h : Typ ts) (q : Sh) (hq : q = .s ∨ q = .r) :
    sacc (srun q (ts.flatMap alTok)) = true ∧ (ts.flatMap alTok).flatMap gproj = ts.flatMap gproj := by
  induction ts generalizing q with
  | nil => rcases hq with rfl | rfl <;> exact ⟨rfl, rfl⟩
  | cons a ts ih =>
    obtain ⟨c, hc, rfl⟩ := h a (by simp)
    have hp := srun_phR (List.all_eq_true.1 ph_shape c hc)
    rw [List.flatMap_cons, srun_append, List.flatMap_append, List.flatMap_cons]
    have h2 := ih (fun b hb => h b (by simp [hb])) .r (.inr rfl)
    have h3 : srun q (alTok (.g c.typ)) = .r := by
      rw [alTok, (char_ok hc).2.1]
      have : σ (σ q (.g c.typ)) .eq = .r := by rcases hq with rfl | rfl <;> rfl
      rw [srun, srun, this, hp.1]
    have h4 : (alTok (.g c.typ)).flatMap gproj = gproj (.g c.typ) := by
      rw [alTok, (char_ok hc).2.1, List.flatMap_cons, List.flatMap_cons, hp.2]
      simp [gproj]
    rw [h3, h4, h2.2]
    exact ⟨h2.1, rfl⟩

theorem al_run {cfg : Cfg} {ts : List Tok} (h : Typ ts)
    (hk : ∀ c ∈ Brh.CHAR, .g c.typ ∈ ts → acc (run cfg .c (alTok (.g c.typ))) = true) (q : Q)
    (hq : acc q = true) : acc (run cfg q (ts.flatMap alTok)) = true := by
  induction ts generalizing q with
  | nil => exact hq
  | cons a ts ih =>
    obtain ⟨c, hc, rfl⟩ := h a (by simp)
    rw [List.flatMap_cons, run_append]
    refine ih (fun b hb => h b (by simp [hb])) (fun c hc hm => hk c hc (by simp [hm])) _ ?_
    have := hk c hc (by simp)
    rw [alTok, NT.run] at this ⊢
    rw [δ_g hq (q' := .c) rfl]
    exact this

theorem al_ok {cfg : Cfg} (hc : cfg ∈ [M1, M1h, M1t]) {ts : List Tok} (h : Typ ts) :
    OK cfg (ts.flatMap alTok) := by
  refine ⟨al_run h ?_ .c rfl, (al_shape h .s (.inl rfl)).1⟩
  intro c hc' _
  have h1 := List.all_eq_true.1 ph_ok c hc'
  rw [phOk, Bool.and_eq_true] at h1
  exact List.all_eq_true.1 h1.2 cfg hc

theorem al_ok2 {ts : List Tok} (h : Typ ts) (hd : ∀ s ∈ diNames, .g s ∉ ts) :
    OK M2 (ts.flatMap alTok) := by
  refine ⟨al_run h ?_ .c rfl, (al_shape h .s (.inl rfl)).1⟩
  intro c hc' hm
  have h1 := List.all_eq_true.1 ph_ok2 c hc'
  rw [phOk2, Bool.or_eq_true] at h1
  rcases h1 with h1 | h1
  · exact absurd hm (hd _ (any_seq h1))
  · exact h1

theorem txnTab_tok : ∀ l r, (l, r) ∈ txnTab →
    ∃ a : Tok, a.plain ∧ l = enc1 a ∧ r = enc (alTok a) := by
  intro l r h
  obtain ⟨c, hc, he⟩ := List.mem_map.1 h
  injection he with h1 h2
  subst h1; subst h2
  exact ⟨.g c.typ, (char_ok hc).2.2, rfl, (alTok_enc hc).symm⟩

theorem enc_flatMap (ts : List Tok) (f : Tok → List Tok) :
    enc (ts.flatMap f) = ts.flatMap fun a => enc (f a) := by
  induction ts with
  | nil => rfl
  | cons a ts ih => rw [List.flatMap_cons, enc_append, ih, List.flatMap_cons]

theorem txn_stage {ts : List Tok} (h : Typ ts) :
    G2p.TYP_TO_TXN (enc ts) (enc (ts.flatMap alTok)) ∧
      ∀ z, G2p.TYP_TO_TXN (enc ts) z → z = enc (ts.flatMap alTok) := by
  rw [typToTxn_eq, enc_flatMap]
  refine ⟨starR_toks_out ?_, fun z hz => (starR_toks txnTab_tok h.plain hz).1⟩
  intro a ha
  obtain ⟨c, hc, rfl⟩ := h a ha
  exact List.mem_map.2 ⟨c, hc, by rw [alTok_enc hc]; rfl⟩

/-- From texts to default pronunciations. -/
theorem isoTxn_stage (m : Mode) {cs : List Chr} (h : IsoCs cs) :
    ∃ ts, TypS ts ∧ compose (isoToTypRules m) (m.labels (cs.flatMap Chr.glyph)) (enc ts) ∧
      compose (G2p.isoToTxn m) (m.labels (cs.flatMap Chr.glyph)) (enc (ts.flatMap alTok)) ∧
      ∀ z, compose (G2p.isoToTxn m) (m.labels (cs.flatMap Chr.glyph)) z → z = enc (ts.flatMap alTok) := by
  obtain ⟨ts, h1, h2, h3, _⟩ := iso_stage m h
  obtain ⟨h4, h5⟩ := txn_stage h1.1
  refine ⟨ts, h1, h2, (compose_append ..).2 ⟨_, h2, h4⟩, ?_⟩
  intro z hz
  obtain ⟨u, hu, hz⟩ := (compose_append ..).1 hz
  rw [h3 u hu] at hz
  exact h5 z hz

end Nisaba.NT
