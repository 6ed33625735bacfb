import Verif.Lemmas.NtChain
/-!
# Alignments as texts
-/
namespace Nisaba.NT.Spec

/-- The parts of a string enclosed in `<` and `>`. -/
def leftGo : Bool → Str → Str
  | _, [] => []
  | false, c :: cs => if c = LT then c :: leftGo true cs else leftGo false cs
  | true, c :: cs => c :: leftGo (c ≠ GT) cs

/-- The left sides of a sequence of alignments. -/
def leftSides (s : Str) : Str := leftGo false s

/-- The parts of a string not enclosed in `<` and `>`, without the signs `=`. -/
def rightGo : Bool → Str → Str
  | _, [] => []
  | false, c :: cs =>
    if c = LT then rightGo true cs else if c = EQ then rightGo false cs else c :: rightGo false cs
  | true, c :: cs => rightGo (c ≠ GT) cs

/-- The right sides of a sequence of alignments. -/
def rightSides (s : Str) : Str := rightGo false s

/-- Sequences of alignments: one or more graphemes, the sign `=` and phonemes. -/
def Aligned : Lang := Star (cat GRAPHEME (cat GRAPHEMES (cat (str [EQ]) (Star PHONEME))))

end Nisaba.NT.Spec

namespace Nisaba.NT
open Spec G2p

theorem leftGo_true (s rest : Str) (h : GT ∉ s) :
    leftGo true (s ++ GT :: rest) = s ++ GT :: leftGo false rest := by
  induction s with
  | nil => simp [leftGo]
  | cons c s ih =>
    have hc : c ≠ GT := fun he => h (by simp [he])
    simp only [List.cons_append, leftGo, ne_eq, hc, not_false_eq_true, decide_true]
    rw [ih fun he => h (by simp [he])]

theorem rightGo_true (s rest : Str) (h : GT ∉ s) :
    rightGo true (s ++ GT :: rest) = rightGo false rest := by
  induction s with
  | nil => simp [rightGo]
  | cons c s ih =>
    have hc : c ≠ GT := fun he => h (by simp [he])
    simp only [List.cons_append, rightGo, ne_eq, hc, not_false_eq_true, decide_true]
    rw [ih fun he => h (by simp [he])]

theorem leftGo_false (s rest : Str) (h : LT ∉ s) : leftGo false (s ++ rest) = leftGo false rest := by
  induction s with
  | nil => rfl
  | cons c s ih =>
    have hc : c ≠ LT := fun he => h (by simp [he])
    simp only [List.cons_append, leftGo, hc, if_false]
    exact ih fun he => h (by simp [he])

theorem rightGo_false (s rest : Str) (h : LT ∉ s) (h' : EQ ∉ s) :
    rightGo false (s ++ rest) = s ++ rightGo false rest := by
  induction s with
  | nil => rfl
  | cons c s ih =>
    have hc : c ≠ LT := fun he => h (by simp [he])
    have hc' : c ≠ EQ := fun he => h' (by simp [he])
    simp only [List.cons_append, rightGo, hc, hc', if_false]
    rw [ih (fun he => h (by simp [he])) fun he => h' (by simp [he])]

theorem sides_enc {ts : List Tok} (h : Plain ts) :
    leftSides (enc ts) = (ts.flatMap gproj).flatMap encloseGrapheme ∧
      rightSides (enc ts) = enc (ts.filter isR) := by
  unfold leftSides rightSides
  induction ts with
  | nil => exact ⟨rfl, rfl⟩
  | cons a ts ih =>
    rw [plain_cons] at h
    obtain ⟨i1, i2⟩ := ih h.2
    have n1 : GT ∉ a.name := a.plain_not h.1 rfl
    have n2 : LT ∉ a.name := a.plain_not h.1 rfl
    have n3 : EQ ∉ a.name := a.plain_not h.1 rfl
    cases a with
    | g s =>
      have e : enc (.g s :: ts) = LT :: (s ++ GT :: enc ts) := by
        simp [enc, enc1, encloseGrapheme]
      rw [e]
      simp only [leftGo, rightGo, if_true]
      rw [leftGo_true s _ n1, rightGo_true s _ n1, i1, i2]
      exact ⟨by simp [gproj, encloseGrapheme], by simp [isR]⟩
    | eq =>
      have e : enc (.eq :: ts) = EQ :: enc ts := rfl
      rw [e]
      simp only [leftGo, rightGo, show ¬ EQ = LT by decide, if_true, if_false]
      rw [i1, i2]
      exact ⟨by simp [gproj], by simp [isR]⟩
    | p s =>
      have e : enc (.p s :: ts) = enclosePhoneme s ++ enc ts := rfl
      have m1 : LT ∉ enclosePhoneme s := by
        simpa [enclosePhoneme, LT, CURLYL, CURLYR, Tok.name] using n2
      have m2 : EQ ∉ enclosePhoneme s := by
        simpa [enclosePhoneme, EQ, CURLYL, CURLYR, Tok.name] using n3
      rw [e, leftGo_false _ _ m1, rightGo_false _ _ m1 m2, i1, i2]
      exact ⟨by simp [gproj], by rw [List.filter_cons_of_pos rfl]; rfl⟩
    | t s =>
      have e : enc (.t s :: ts) = encloseTranslit s ++ enc ts := rfl
      have m1 : LT ∉ encloseTranslit s := by
        simpa [encloseTranslit, LT, GRAVE, Tok.name] using n2
      have m2 : EQ ∉ encloseTranslit s := by
        simpa [encloseTranslit, EQ, GRAVE, Tok.name] using n3
      rw [e, leftGo_false _ _ m1, rightGo_false _ _ m1 m2, i1, i2]
      exact ⟨by simp [gproj], by rw [List.filter_cons_of_pos rfl]; rfl⟩

/-- Sequences without translits. -/
def NoT (ts : List Tok) : Prop := ∀ a ∈ ts, ∀ s, a ≠ .t s

theorem grapheme_g {s : Str} (h : (Tok.g s).plain) : GRAPHEME (enc1 (.g s)) :=
  ⟨[LT], s ++ [GT], rfl, rfl, s, [GT], rfl, fun c hc => nameChar_sym (h c hc), rfl⟩

theorem phoneme_p {s : Str} (h : (Tok.p s).plain) : PHONEME (enc1 (.p s)) :=
  ⟨[CURLYL], s ++ [CURLYR], rfl, rfl, s, [CURLYR], rfl, fun c hc => nameChar_sym (h c hc), rfl⟩

/-- The three kinds of rests of a sequence of alignments. -/
theorem aligned_rest {ts : List Tok} (h : Plain ts) (ht : NoT ts) (q : Sh)
    (hs : sacc (srun q ts) = true) :
    (q = .s → Aligned (enc ts)) ∧
    (q = .g → cat GRAPHEMES (cat (cat (str [EQ]) (Star PHONEME)) Aligned) (enc ts)) ∧
    (q = .r → cat (Star PHONEME) Aligned (enc ts)) := by
  induction ts generalizing q with
  | nil =>
    refine ⟨fun _ => .nil, fun hq => ?_, fun _ => ⟨[], [], rfl, .nil, .nil⟩⟩
    subst hq; cases hs
  | cons a ts ih =>
    rw [plain_cons] at h
    have ih := ih h.2 (fun b hb => ht b (by simp [hb])) (σ q a) hs
    cases a with
    | t s => exact absurd rfl (ht (.t s) (by simp) s)
    | g s =>
      have hg := grapheme_g h.1
      have al : q ≠ .z → Aligned (enc (.g s :: ts)) := by
        intro hq
        obtain ⟨u, v, he, hu, w, x, rfl, ⟨w1, w2, rfl, hw1, hw2⟩, hx⟩ :=
          ih.2.1 (by cases q <;> first | rfl | exact absurd rfl hq)
        rw [enc_cons, he]
        have := Star.cons (a := cat GRAPHEME (cat GRAPHEMES (cat (str [EQ]) (Star PHONEME))))
          (u := enc1 (.g s) ++ (u ++ (w1 ++ w2))) (v := x)
          ⟨_, _, rfl, hg, _, _, rfl, hu, _, _, rfl, hw1, hw2⟩ hx
        simpa [Aligned] using this
      refine ⟨fun hq => al (by simp [hq]), fun hq => ?_, fun hq => ⟨[], _, rfl, .nil, al (by simp [hq])⟩⟩
      subst hq
      obtain ⟨u, v, he, hu, hv⟩ := ih.2.1 rfl
      exact ⟨enc1 (.g s) ++ u, v, by rw [enc_cons, he, List.append_assoc], .cons hg hu, hv⟩
    | eq =>
      refine ⟨fun hq => ?_, fun hq => ?_, fun hq => ?_⟩
      · subst hq; rw [srun, σ, srun_z] at hs; cases hs; all_goals simp
      · subst hq
        obtain ⟨u, v, he, hu, hv⟩ := ih.2.2 rfl
        exact ⟨[], enc (.eq :: ts), rfl, .nil, [EQ] ++ u, v, by rw [enc_cons, he, List.append_assoc]; rfl,
          ⟨_, _, rfl, rfl, hu⟩, hv⟩
      · subst hq; rw [srun, σ, srun_z] at hs; cases hs; all_goals simp
    | p s =>
      have hp := phoneme_p h.1
      refine ⟨fun hq => ?_, fun hq => ?_, fun hq => ?_⟩
      · subst hq; rw [srun, σ, srun_z] at hs; cases hs; all_goals simp
      · subst hq; rw [srun, σ, srun_z] at hs; cases hs; all_goals simp
      · subst hq
        obtain ⟨u, v, he, hu, hv⟩ := ih.2.2 rfl
        exact ⟨enc1 (.p s) ++ u, v, by rw [enc_cons, he, List.append_assoc], .cons hp hu, hv⟩

theorem OK.noT {cfg : Cfg} (hc : cfg ∈ [M1, M2, M1t]) {ts : List Tok} (h : OK cfg ts) : NoT ts := by
  rintro a ha s rfl
  have h1 := run_notr hc h.1 _ ha
  have h2 := h.1
  by_cases hm : trNames.any (seq s) = true
  · exact h1 (by rw [cls, hm]; rfl)
  · have hb : cls (.t s) = .bad := by
      rw [cls, Bool.eq_false_iff.2 hm]; rfl
    obtain ⟨us, vs, rfl⟩ := List.append_of_mem ha
    rw [run_append, NT.run, hb, δ_bad, run_z] at h2
    cases h2

theorem OK.aligned {cfg : Cfg} (hc : cfg ∈ [M1, M2, M1t]) {ts : List Tok} (h : OK cfg ts) :
    Aligned (enc ts) := (aligned_rest h.plain (h.noT hc) .s h.2).1 rfl

/-- Graphemes of the texts of iso_to_typ. -/
theorem typ_enc {ts : List Tok} (h : Typ ts) :
    (ts.flatMap gproj).flatMap encloseGrapheme = enc ts := by
  induction ts with
  | nil => rfl
  | cons a ts ih =>
    obtain ⟨c, _, rfl⟩ := h a (by simp)
    rw [List.flatMap_cons, List.flatMap_append, ih fun b hb => h b (by simp [hb]), enc_cons]
    simp [gproj, enc1]

end Nisaba.NT
