import Verif.Lemmas.NtVocalic
import Verif.Lemmas.Acronym
/-!
# `VOCALIC_TR_I` on sequences

The second rule of `VOCALIC_TR_I` writes `` `i` `` for the vowel of a vocalic sign and may read the
length sign with it or leave it.
-/
namespace Nisaba.NT
open G2p Rom

set_option maxRecDepth 100000

/-! ## The rule -/

/-- The inputs of the rule and its output. -/
def τ2 : Rel := cross (alt Psa.lVOWEL (ph a!"SYL")) (tr a!"I")
/-- Its contexts. -/
def C2 : Cx Nat := ctxOf (cat Brh.lVOCALIC SKIP) (str [])

theorem tri_eq : rewrite (alt Psa.lVOWEL (ph a!"SYL")) (tr a!"I") (some Brh.lVOCALIC) =
    cdrewrite τ2 (cat Brh.lVOCALIC SKIP) (str []) := rfl

/-- A phoneme that is no consonant or length sign. -/
def vowB : Tok → Bool
  | .p s => match vcls (.p s) with | .p => true | .syl => true | .ec => true | _ => false
  | _ => false
def isP : Tok → Bool
  | .p _ => true
  | _ => false

def vowToks (s : Str) : Option (List Tok) → Bool
  | some (a :: lt) => seq s (enc (a :: lt)) && plainB (a :: lt) && vowB a && lt.all isP
  | _ => false
def modToks (s : Str) : Option (List Tok) → Bool
  | some lt => seq s (enc lt) && plainB lt && lt.all isP
  | _ => false

theorem vow_all : ((Psa.ph a!"SYL" :: Psa.VOWEL.map Phn.ph).all fun s => vowToks s (toks s)) = true := by
  decide +kernel
theorem mod_all : ((Psa.VOWEL_MOD.map Phn.ph).all fun s => modToks s (toks s)) = true := by decide +kernel
theorem tri_i : seq (Ltn.tr a!"I") (enc [.t a!"i"]) = true := by decide +kernel

theorem vowToks_sound {s : Str} (h : vowToks s (toks s) = true) :
    ∃ a lt, s = enc (a :: lt) ∧ Plain (a :: lt) ∧ vowB a = true ∧ ∀ b ∈ lt, isP b = true := by
  generalize toks s = o at h
  unfold vowToks at h
  split at h
  · next a lt =>
    simp only [Bool.and_eq_true] at h
    exact ⟨a, lt, seq_eq.1 h.1.1.1, plainB_iff.1 h.1.1.2, h.1.2, List.all_eq_true.1 h.2⟩
  · cases h

theorem modToks_sound {s : Str} (h : modToks s (toks s) = true) :
    ∃ lt, s = enc lt ∧ Plain lt ∧ ∀ b ∈ lt, isP b = true := by
  generalize toks s = o at h
  unfold modToks at h
  split at h
  · next lt =>
    simp only [Bool.and_eq_true] at h
    exact ⟨lt, seq_eq.1 h.1.1, plainB_iff.1 h.1.2, List.all_eq_true.1 h.2⟩
  · cases h

theorem mods_form {s : Str} (h : Star (Psa.phUnion Psa.VOWEL_MOD) s) :
    ∃ lt, s = enc lt ∧ Plain lt ∧ ∀ b ∈ lt, isP b = true := by
  induction h with
  | nil => exact ⟨[], rfl, (fun _ h => by cases h), (fun _ h => by cases h)⟩
  | cons h k ih =>
    obtain ⟨p, hp, rfl⟩ := h
    obtain ⟨l1, h1, h2, h3⟩ := modToks_sound (List.all_eq_true.1 mod_all p.ph (List.mem_map.2 ⟨p, hp, rfl⟩))
    obtain ⟨l2, h4, h5, h6⟩ := ih
    refine ⟨l1 ++ l2, by rw [enc_append, ← h1, ← h4], plain_append.2 ⟨h2, h5⟩, ?_⟩
    intro b hb
    rw [List.mem_append] at hb
    exact hb.elim (h3 b) (h6 b)

theorem τ2_form {l r : Str} (h : τ2 l r) : r = enc [.t a!"i"] ∧
    ∃ a lt, l = enc (a :: lt) ∧ Plain (a :: lt) ∧ vowB a = true ∧ ∀ b ∈ lt, isP b = true := by
  obtain ⟨h1, h2⟩ := h
  refine ⟨h2.trans (seq_eq.1 tri_i), ?_⟩
  rcases h1 with ⟨u, v, rfl, ⟨p, hp, rfl⟩, hv⟩ | rfl
  · obtain ⟨a, lt, g1, g2, g3, g4⟩ := vowToks_sound (List.all_eq_true.1 vow_all p.ph
      (List.mem_cons_of_mem _ (List.mem_map.2 ⟨p, hp, rfl⟩)))
    obtain ⟨l2, h4, h5, h6⟩ := mods_form hv
    refine ⟨a, lt ++ l2, ?_, ?_, g3, ?_⟩
    · rw [← List.cons_append, enc_append, ← g1, ← h4]
    · rw [← List.cons_append]; exact plain_append.2 ⟨g2, h5⟩
    · intro b hb
      rw [List.mem_append] at hb
      exact hb.elim (g4 b) (h6 b)
  · exact vowToks_sound (List.all_eq_true.1 vow_all _ (by simp))

theorem vowB_p {a : Tok} (h : vowB a = true) : ∃ s, a = .p s := by
  cases a with
  | p s => exact ⟨s, rfl⟩
  | g s => cases h
  | eq => cases h
  | t s => cases h

theorem isP_p {a : Tok} (h : isP a = true) : ∃ s, a = .p s := by
  cases a with
  | p s => exact ⟨s, rfl⟩
  | g s => cases h
  | eq => cases h
  | t s => cases h

theorem vowB_cls {a : Tok} (h : vowB a = true) : vcls a = .p ∨ vcls a = .syl ∨ vcls a = .ec := by
  obtain ⟨s, rfl⟩ := vowB_p h
  revert h
  rw [vowB]
  generalize vcls (.p s) = x
  cases x <;> simp

theorem τ2_ne {l r : Str} (h : τ2 l r) : l ≠ [] := by
  obtain ⟨_, a, lt, rfl, _⟩ := τ2_form h
  rw [enc_cons]; simp [enc1_ne]

theorem τ2_head {l r : Str} (h : τ2 l r) : l.head? = some 123 := by
  obtain ⟨_, a, lt, rfl, _, h2, _⟩ := τ2_form h
  obtain ⟨s, rfl⟩ := vowB_p h2
  rfl

theorem vow_ec : ∃ r, τ2 (enc [.p a!"ec"]) r := by
  have h : ((Psa.VOWEL.map Phn.ph).any fun s => seq s (enc [.p a!"ec"])) = true := by decide +kernel
  obtain ⟨s, hs, he⟩ := List.any_eq_true.1 h
  obtain ⟨p, hp, rfl⟩ := List.mem_map.1 hs
  exact ⟨Ltn.tr a!"I", .inl ⟨p.ph, [], by rw [← seq_eq.1 he]; simp, ⟨p, hp, rfl⟩, .nil⟩, rfl⟩

/-! ## The left context -/

theorem voc_mem {v : Str} : Brh.lVOCALIC v ↔ ∃ s ∈ vocNames, v = encloseGrapheme s := by
  have : Brh.lVOCALIC v ↔ v ∈ (Brh.VOCALIC_SIGN ++ Brh.INDEPENDENT_VOCALIC).map Chr.gr := by
    rw [List.mem_map]
    constructor
    · rintro ⟨c, hc, rfl⟩; exact ⟨c, hc, rfl⟩
    · rintro ⟨c, hc, rfl⟩; exact ⟨c, hc, rfl⟩
  rw [this, voc_eq, List.mem_map]
  constructor
  · rintro ⟨s, hs, rfl⟩; exact ⟨s, hs, rfl⟩
  · rintro ⟨s, hs, rfl⟩; exact ⟨s, hs, rfl⟩

theorem voc_plain {s : Str} (h : s ∈ vocNames) : Tok.plain (.g s) := by
  have : (vocNames.all nameB) = true := by decide +kernel
  exact nameB_iff.1 (List.all_eq_true.1 this s h)

theorem voc_cls {s : Str} (h : s ∈ vocNames) : vcls (.g s) = .voc := by
  rw [vcls, show vocNames.any (seq s) = true from List.any_eq_true.2 ⟨s, h, seq_eq.2 rfl⟩]
  rfl

theorem rsyms_no60' {k : Str} (h : R_SYMS k) : 60 ∉ k := by
  have hs : ∀ {u : Str}, SYM u → 60 ∉ u := fun hu hm => absurd (hu 60 hm) (by unfold symChar; decide)
  induction h with
  | nil => simp
  | cons h k ih =>
    rw [List.mem_append]
    rintro (hm | hm)
    · rcases h with ⟨_, _, rfl, rfl, _, _, rfl, hu, rfl⟩ | ⟨_, _, rfl, rfl, _, _, rfl, hu, rfl⟩ <;>
        simp [hs hu, CURLYL, CURLYR, GRAVE] at hm
    · exact ih hm

theorem skip_cases {k : Str} (h : SKIP k) : 60 ∉ k ∨ ∃ u, k = 60 :: u := by
  rcases h with (⟨u, _, rfl, hu, rfl⟩ | rfl) | (⟨_, s, rfl, rfl, hs⟩ | rfl)
  · rcases graphemes_head hu with rfl | ⟨w, rfl⟩
    · exact .inl (by simp [EQ])
    · exact .inr ⟨_, rfl⟩
  · exact .inl (by simp)
  · exact .inl (by have := rsyms_no60' hs; simp [EQ, this])
  · exact .inl (by simp)

theorem vrun_noG {q : Vq} (hq : q ≠ .n) {vt : List Tok} (h : ∀ s, Tok.g s ∉ vt) : vrun false q vt ≠ .n := by
  induction vt generalizing q with
  | nil => exact hq
  | cons a vt ih =>
    refine ih ?_ fun s hs => h s (by simp [hs])
    cases a with
    | g s => exact absurd (by simp) (h s)
    | eq => cases q <;> first | exact absurd rfl hq | simp [vcls, vδ]
    | t s => cases q <;> first | exact absurd rfl hq | simp [vcls, vδ]
    | p s =>
      have hc : vcls (.p s) ≠ .voc ∧ vcls (.p s) ≠ .g := by
        rw [vcls]
        cases seq s a!"S" <;> cases seq s a!"ec" <;> cases seq s a!"r" <;> cases seq s a!"l" <;>
          cases seq s a!":h" <;> simp
      generalize vcls (.p s) = x at hc
      cases q <;> cases x <;> first | exact absurd rfl hq | exact absurd rfl hc.1 | exact absurd rfl hc.2 | simp [vδ]

/-- Outside of a vocalic sign the rule is not applicable. -/
theorem left_n {os : List Tok} (hp : Plain os) (h : C2.left (enc os)) : vrun false .n os ≠ .n := by
  obtain ⟨p, x, he, v, k, rfl, hv, hk⟩ := h
  obtain ⟨s, hs, rfl⟩ := voc_mem.1 hv
  cases p with
  | nil => injection he with h1 _; exact absurd h1 (by decide)
  | cons c p =>
    injection he with _ he
    have he' : enc os = p ++ enc [.g s] ++ k := by rw [he]; simp [enc_cons, enc_nil, enc1]
    obtain ⟨ut, vt, rfl, rfl, rfl⟩ := enc_factor hp (fun a ha => by
      rw [List.mem_singleton] at ha; rw [ha]; exact voc_plain hs) (by simp) he'
    rw [vrun_append, vrun_append, vrun, voc_cls hs, vrun]
    have hz : vδ false (vrun false .n ut) .voc ≠ .n := by
      generalize vrun false .n ut = q; cases q <;> simp [vδ]
    rcases skip_cases hk with h | ⟨u, h⟩
    · refine vrun_noG hz fun s' hm => h ?_
      rw [enc, List.mem_flatMap]
      exact ⟨_, hm, by simp [enc1, encloseGrapheme, LT]⟩
    · cases vt with
      | nil => cases h
      | cons a vt =>
        rw [plain_append, plain_cons] at hp
        cases a with
        | g s' =>
          rw [vrun]
          have : vδ false (vδ false (vrun false .n ut) .voc) (vcls (.g s')) = .z := by
            generalize vrun false .n ut = q
            rcases vcls_g s' with h' | h' <;> rw [h'] <;> cases q <;> rfl
          rw [this, vrun_z]
          simp
        | eq => injection h with h _; exact absurd h (by decide)
        | p s' => injection h with h _; exact absurd h (by decide)
        | t s' => injection h with h _; exact absurd h (by decide)

theorem vcls_p {s : Str} : vcls (.p s) ≠ .voc ∧ vcls (.p s) ≠ .g ∧ vcls (.p s) ≠ .eq ∧ vcls (.p s) ≠ .t := by
  rw [vcls]
  cases seq s a!"S" <;> cases seq s a!"ec" <;> cases seq s a!"r" <;> cases seq s a!"l" <;>
    cases seq s a!":h" <;> simp

theorem vrun_last {q : Vq} {os : List Tok} (h : vrun false .n os = q) (hq : q ≠ .n) :
    ∃ os' a, os = os' ++ [a] ∧ vδ false (vrun false .n os') (vcls a) = q := by
  rcases List.eq_nil_or_concat os with rfl | ⟨os', a, rfl⟩
  · exact absurd h.symm hq
  · rw [List.concat_eq_append] at h ⊢
    rw [vrun_append] at h
    exact ⟨os', a, rfl, h⟩

/-- After the consonant of a vocalic sign it is applicable. -/
theorem left_c {os : List Tok} (hp : Plain os) (h : vrun false .n os = .c) : C2.left (enc os) := by
  obtain ⟨o1, a, rfl, h1⟩ := vrun_last h (by simp)
  have ha : vcls a = .rl ∧ vrun false .n o1 = .e := by
    revert h1
    generalize vrun false .n o1 = q
    generalize vcls a = x
    cases q <;> cases x <;> simp [vδ]
  obtain ⟨o2, b, rfl, h2⟩ := vrun_last ha.2 (by simp)
  have hb : vcls b = .eq ∧ vrun false .n o2 = .g := by
    revert h2
    generalize vrun false .n o2 = q
    generalize vcls b = x
    cases q <;> cases x <;> simp [vδ]
  obtain ⟨o3, c, rfl, h3⟩ := vrun_last hb.2 (by simp)
  have hc : vcls c = .voc := by
    revert h3
    generalize vrun false .n o3 = q
    generalize vcls c = x
    cases q <;> cases x <;> simp [vδ]
  have hga : ∃ s, a = .p s := by
    cases a with
    | p s => exact ⟨s, rfl⟩
    | g s => rcases vcls_g s with h | h <;> rw [h] at ha <;> cases ha.1
    | eq => cases ha.1
    | t s => cases ha.1
  have hgb : b = .eq := by
    cases b with
    | eq => rfl
    | p s => exact absurd hb.1 vcls_p.2.2.1
    | g s => rcases vcls_g s with h | h <;> rw [h] at hb <;> cases hb.1
    | t s => cases hb.1
  have hgc : ∃ s ∈ vocNames, c = .g s := by
    cases c with
    | eq => cases hc
    | p s => exact absurd hc vcls_p.1
    | t s => cases hc
    | g s =>
      rw [vcls] at hc
      cases hs : vocNames.any (seq s) with
      | false => rw [hs] at hc; cases hc
      | true => exact ⟨s, any_seq hs, rfl⟩
  obtain ⟨s, rfl⟩ := hga
  obtain ⟨g, hg, rfl⟩ := hgc
  subst hgb
  have hs : Tok.plain (.p s) := hp _ (by simp)
  refine ⟨bos :: enc o3, encloseGrapheme g ++ (EQ :: enclosePhoneme s), ?_, _, _, rfl,
    voc_mem.2 ⟨g, hg, rfl⟩, .inr (.inl ⟨[EQ], enclosePhoneme s, rfl, rfl, ?_⟩)⟩
  · simp [enc_append, enc_cons, enc_nil, enc1]
  · have h1 : PHONEME (enclosePhoneme s) :=
      ⟨[CURLYL], s ++ [CURLYR], rfl, rfl, s, [CURLYR], rfl, fun c hc => nameChar_sym (hs c hc), rfl⟩
    have := Star.cons (a := alt PHONEME TRANSLIT) (.inl h1) .nil
    rw [List.append_nil] at this
    exact this

/-! ## Outputs -/

/-- The outputs of the rule from a state. -/
inductive Gen : Vq → List Tok → List Tok → Prop
  | nil {q : Vq} : Gen q [] []
  | copy {q : Vq} {a : Tok} {ts us : List Tok} (h : ¬ (q = .c ∧ a = .p a!"ec"))
      (k : Gen (vδ false q (vcls a)) ts us) : Gen q (a :: ts) (a :: us)
  | tr {ts us : List Tok} (k : Gen .v ts us) : Gen .c (.p a!"ec" :: ts) (.t a!"i" :: us)
  | trl {ts us : List Tok} (k : Gen .h ts us) :
      Gen .c (.p a!"ec" :: .p a!":h" :: ts) (.t a!"i" :: us)

theorem vcls_ec {a : Tok} (h : vcls a = .ec) : a = .p a!"ec" := by
  cases a with
  | g s => rcases vcls_g s with h' | h' <;> rw [h'] at h <;> cases h
  | eq => cases h
  | t s => cases h
  | p s =>
    revert h
    rw [vcls]
    cases seq s a!"S" with
    | true => intro h; cases h
    | false =>
      cases hs : seq s a!"ec" with
      | true => intro _; rw [seq_eq.1 hs]
      | false =>
        cases seq s a!"r" <;> cases seq s a!"l" <;> cases seq s a!":h" <;> (intro h; cases h)

theorem vcls_dur {a : Tok} (h : vcls a = .dur) : a = .p a!":h" := by
  cases a with
  | g s => rcases vcls_g s with h' | h' <;> rw [h'] at h <;> cases h
  | eq => cases h
  | t s => cases h
  | p s =>
    revert h
    rw [vcls]
    cases seq s a!"S" with
    | true => intro h; cases h
    | false =>
      cases seq s a!"ec" with
      | true => intro h; cases h
      | false =>
        cases seq s a!"r" with
        | true => intro h; cases h
        | false =>
          cases seq s a!"l" with
          | true => intro h; cases h
          | false =>
            cases hs : seq s a!":h" with
            | true => intro _; rw [seq_eq.1 hs]
            | false => intro h; cases h

theorem not_z {ts : List Tok} (h : vacc (vrun false .z ts) = true) : False := by
  rw [vrun_z] at h; cases h

/-- The state follows. -/
def Tracks (os : List Tok) (q : Vq) : Prop :=
  vrun false .n os = q ∨ q = .h ∧ vrun false .n os = .v

theorem tracks_step {os : List Tok} {q : Vq} {a : Tok} {ts : List Tok} (h : Tracks os q)
    (ha : vacc (vrun false q (a :: ts)) = true) : Tracks (os ++ [a]) (vδ false q (vcls a)) := by
  rcases h with rfl | ⟨rfl, h⟩
  · exact .inl (by rw [vrun_append]; rfl)
  · rw [vrun] at ha
    refine .inl ?_
    rw [vrun_append, h]
    show vδ false .v (vcls a) = _
    generalize vcls a = x at ha ⊢
    cases x <;> first | rfl | exact (not_z ha).elim

theorem plain_no123 {s : Str} (h : ∀ c ∈ s, nameChar c = true) : 123 ∉ s := by
  intro hm
  have := h 123 hm
  cases this

theorem gen_of {n : Nat} {ts os : List Tok} {q : Vq} {y : Str} (hn : ts.length = n) (ho : Plain os)
    (ht : Plain ts) (hq : Tracks os q) (ha : vacc (vrun false q ts) = true)
    (h : Cdr τ2 C2 (enc os) (enc ts) y) : ∃ us, y = enc (os ++ us) ∧ Gen q ts us := by
  induction n using Nat.strongRecOn generalizing ts os q with
  | _ n ih =>
    cases ts with
    | nil =>
      refine ⟨[], ?_, .nil⟩
      rw [List.append_nil]
      exact Acr.cdr_end (fun _ _ => τ2_ne) h
    | cons a ts =>
      rw [plain_cons] at ht
      have hstep : Cdr τ2 C2 (enc (os ++ [a])) (enc ts) y → ¬ (q = .c ∧ a = .p a!"ec") →
          ∃ us, y = enc (os ++ us) ∧ Gen q (a :: ts) us := by
        intro hk hc
        obtain ⟨us, h1, h2⟩ := ih ts.length (by rw [← hn]; simp) rfl
          (plain_append.2 ⟨ho, plain_cons.2 ⟨ht.1, fun _ h => by cases h⟩⟩) ht.2 (tracks_step hq ha) ha hk
        exact ⟨a :: us, by rw [h1]; simp, .copy hc h2⟩
      have hskip : 123 ∉ enc1 a → (∀ s, a ≠ .p s) → ∃ us, y = enc (os ++ us) ∧ Gen q (a :: ts) us := by
        intro h1 h2
        refine hstep ?_ fun hc => h2 _ hc.2
        rw [enc_cons, cdr_skip (fun _ _ => τ2_ne)] at h
        · rw [enc_append, enc_cons, enc_nil, List.append_nil]; exact h
        · intro c hc l r hl
          rw [τ2_head hl]
          intro he
          injection he with he
          exact h1 (he ▸ hc)
      cases a with
      | g s => exact hskip (by simp [enc1, encloseGrapheme, LT, GT]; exact plain_no123 ht.1) (by simp)
      | eq => exact hskip (by simp [enc1, EQ]) (by simp)
      | t s => exact hskip (by simp [enc1, encloseTranslit, GRAVE]; exact plain_no123 ht.1) (by simp)
      | p s =>
        have hrest : ∀ {y}, Cdr τ2 C2 (enc os ++ [123]) (s ++ [125] ++ enc ts) y →
            Cdr τ2 C2 (enc (os ++ [.p s])) (enc ts) y := by
          intro y hk
          rw [cdr_skip (fun _ _ => τ2_ne)] at hk
          · rw [enc_append, enc_cons, enc_nil, List.append_nil]
            simpa [enc1, enclosePhoneme, CURLYL, CURLYR] using hk
          · intro c hc l r hl
            rw [τ2_head hl]
            intro he
            injection he with he
            subst he
            simp only [List.mem_append, List.mem_singleton] at hc
            rcases hc with hc | hc
            · exact plain_no123 ht.1 hc
            · cases hc
        have heq : enc (.p s :: ts) = 123 :: (s ++ [125] ++ enc ts) := by
          simp [enc_cons, enc1, enclosePhoneme, CURLYL, CURLYR]
        -- facts on an applicable rule
        have hmatch : ∀ {l r rest'}, τ2 l r → enc (.p s :: ts) = l ++ rest' → C2.left (enc os) →
            q = .c ∧ s = a!"ec" ∧ r = enc [.t a!"i"] ∧ ∃ lt vt, ts = lt ++ vt ∧ rest' = enc vt ∧
              ∀ b ∈ lt, isP b = true := by
          intro l r rest' h1 h2 h3
          obtain ⟨hr, a, lt, rfl, hp, hv, hl⟩ := τ2_form h1
          obtain ⟨vt, h4, h5⟩ := enc_prefix (plain_cons.2 ht) hp h2
          injection h4 with h4 h6
          subst h4
          have hcs := vowB_cls hv
          have hnn : q ≠ .n := by
            rintro rfl
            rcases hq with hq | ⟨hq, _⟩
            · exact left_n ho h3 hq
            · cases hq
          have hqc : q = .c ∧ vcls (.p s) = .ec := by
            rw [vrun] at ha
            generalize vcls (.p s) = x at ha hcs
            rcases hcs with rfl | rfl | rfl <;> cases q <;>
              first | exact absurd rfl hnn | exact ⟨rfl, rfl⟩ | exact (not_z ha).elim
          have := vcls_ec hqc.2
          injection this with this
          exact ⟨hqc.1, this, hr, lt, vt, h6, h5, hl⟩
        by_cases hc : q = .c ∧ s = a!"ec"
        · obtain ⟨rfl, rfl⟩ := hc
          have hv : vacc (vrun false .v ts) = true := ha
          have hos : vrun false .n os = .c := by
            rcases hq with hq | ⟨hq, _⟩
            · exact hq
            · cases hq
          have hti : Plain [Tok.t a!"i"] := plainB_iff.1 rfl
          have htr : Tracks (os ++ [.t a!"i"]) .v := .inl (by rw [vrun_append, hos]; rfl)
          rw [heq] at h
          generalize hr0 : (123 :: (a!"ec" ++ [125] ++ enc ts) : Str) = rest0 at h
          cases h with
          | done => cases hr0
          | insEnd => cases hr0
          | @apply _ l r rest' _ h1 h2 h3 h4 h5 =>
            obtain ⟨_, _, rfl, lt, vt, rfl, rfl, hl⟩ := hmatch h1 (heq.trans hr0) h3
            rw [plain_append] at ht
            rw [← enc_append] at h5
            cases lt with
            | nil =>
              obtain ⟨us, g1, g2⟩ := ih vt.length (by rw [← hn]; simp) rfl (plain_append.2 ⟨ho, hti⟩)
                ht.2.2 htr hv h5
              exact ⟨.t a!"i" :: us, by rw [g1]; simp, .tr g2⟩
            | cons b lt =>
              obtain ⟨s', rfl⟩ := isP_p (hl b (by simp))
              have hd : vcls (.p s') = .dur := by
                rw [List.cons_append, vrun] at hv
                have := vcls_p (s := s')
                generalize vcls (.p s') = x at hv this
                cases x <;> first | rfl | exact (not_z hv).elim | exact absurd rfl this.1 |
                  exact absurd rfl this.2.1
              have := vcls_dur hd
              injection this with this
              subst this
              cases lt with
              | nil =>
                obtain ⟨us, g1, g2⟩ := ih vt.length (by rw [← hn]; simp; omega) rfl
                  (plain_append.2 ⟨ho, hti⟩) ht.2.2 (q := .h)
                  (.inr ⟨rfl, by rw [vrun_append, hos]; rfl⟩) hv h5
                exact ⟨.t a!"i" :: us, by rw [g1]; simp, .trl g2⟩
              | cons b' lt =>
                exfalso
                obtain ⟨s', rfl⟩ := isP_p (hl b' (by simp))
                change vacc (vrun false (vδ false .h (vcls (.p s'))) (lt ++ vt)) = true at hv
                have := vcls_p (s := s')
                generalize vcls (.p s') = x at hv this
                cases x <;> first | exact (not_z hv).elim | exact absurd rfl this.1 |
                  exact absurd rfl this.2.1
          | ins h1 => exact absurd rfl (τ2_ne h1)
          | copy h1 h2 =>
            exfalso
            injection hr0 with e1 e2
            subst e1; subst e2
            obtain ⟨r, hr⟩ := vow_ec
            refine h1 (enc [.p a!"ec"]) r (enc ts) hr ?_ (left_c ho hos) (ctx_nil_right _ _)
            simp [enc_cons, enc_nil, enc1, enclosePhoneme, CURLYL, CURLYR]
        · refine hstep (hrest ?_) fun hc' => hc ⟨hc'.1, by injection hc'.2⟩
          rw [heq] at h
          refine Acr.cdr_copy (fun _ _ => τ2_ne) ?_ h
          intro l r rest' h1 h2 h3 _
          obtain ⟨h4, h5, _⟩ := hmatch h1 (heq.trans h2) h3
          exact hc ⟨h4, h5⟩

/-! ## Shape of the outputs -/

theorem gen_checks : (seqCheck M1r false [.p a!"ec"] [.t a!"i"] &&
    seqCheck M1r false [.p a!"ec", .p a!":h"] [.t a!"i"]) = true := by decide +kernel

theorem gen_ok {q : Vq} {ts us : List Tok} (h : Gen q ts us) (o : List Tok) (hk : OK M1r (o ++ ts)) :
    OK M1r (o ++ us) := by
  have hc := gen_checks
  rw [Bool.and_eq_true] at hc
  induction h generalizing o with
  | nil => exact hk
  | @copy q a ts us _ _ ih =>
    have := ih (o ++ [a]) (by simpa using hk)
    simpa using this
  | @tr ts us _ ih =>
    have := ih (o ++ [.t a!"i"]) (seqCheck_sound hc.1 o ts (fun hb => by cases hb) (by simpa using hk))
    simpa using this
  | @trl ts us _ ih =>
    have := ih (o ++ [.t a!"i"]) (seqCheck_sound hc.2 o ts (fun hb => by cases hb) (by simpa using hk))
    simpa using this

/-- The output that keeps all length signs. -/
def kf : Vq → List Tok → List Tok
  | _, [] => []
  | q, a :: ts => if q = .c ∧ a = .p a!"ec" then .t a!"i" :: kf .v ts else a :: kf (vδ false q (vcls a)) ts

theorem kf_gen (q : Vq) (ts : List Tok) : Gen q ts (kf q ts) := by
  induction ts generalizing q with
  | nil => exact .nil
  | cons a ts ih =>
    rw [kf]
    split
    · next h => obtain ⟨rfl, rfl⟩ := h; exact .tr (ih _)
    · next h => exact .copy h (ih _)

theorem kf_h {ts : List Tok} (h : vacc (vrun false .h ts) = true) :
    kf .h ts = [] ∨ ∃ s us, kf .h ts = .g s :: us := by
  cases ts with
  | nil => exact .inl rfl
  | cons a ts =>
    right
    rw [kf, if_neg (by simp)]
    cases a with
    | g s => exact ⟨s, _, rfl⟩
    | eq => exact (not_z h).elim
    | t s => exact (not_z h).elim
    | p s =>
      exfalso
      rw [vrun] at h
      have := vcls_p (s := s)
      generalize vcls (.p s) = x at h this
      cases x <;> first | exact (not_z h).elim | exact absurd rfl this.1 | exact absurd rfl this.2.1

/-- A relation that holds for one length sign more holds for all outputs. -/
theorem gen_same {S : List Tok → List Tok → Prop} (hrefl : ∀ us, S us us)
    (htrans : ∀ a b c, S a b → S b c → S a c)
    (hd : ∀ o us, (us = [] ∨ ∃ s vs, us = .g s :: vs) → OK M1r (o ++ .t a!"i" :: .p a!":h" :: us) →
      OK M1r (o ++ .t a!"i" :: us) → S (o ++ .t a!"i" :: .p a!":h" :: us) (o ++ .t a!"i" :: us))
    {q : Vq} {ts us : List Tok} (h : Gen q ts us) (ha : vacc (vrun false q ts) = true) (o : List Tok)
    (hk : ∀ vs, Gen q ts vs → OK M1r (o ++ vs)) : S (o ++ kf q ts) (o ++ us) := by
  induction h generalizing o with
  | nil => exact hrefl _
  | @copy q a ts us hc _ ih =>
    rw [kf, if_neg hc]
    have := ih ha (o ++ [a]) fun vs hv => by simpa using hk _ (.copy hc hv)
    simpa using this
  | @tr ts us _ ih =>
    rw [kf, if_pos ⟨rfl, rfl⟩]
    have := ih ha (o ++ [.t a!"i"]) fun vs hv => by simpa using hk _ (.tr hv)
    simpa using this
  | @trl ts us k ih =>
    rw [kf, if_pos ⟨rfl, rfl⟩, kf, if_neg (by simp)]
    have ha' : vacc (vrun false .h ts) = true := ha
    have h1 := ih ha' (o ++ [.t a!"i"]) fun vs hv => by simpa using hk _ (.trl hv)
    refine htrans _ _ _ (hd o (kf .h ts) (kf_h ha') ?_ ?_) (by simpa using h1)
    · exact hk _ (.tr (.copy (by simp) (kf_gen _ _)))
    · exact hk _ (.trl (kf_gen _ _))

end Nisaba.NT
