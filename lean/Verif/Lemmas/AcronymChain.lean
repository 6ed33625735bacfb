import Verif.Lemmas.Acronym
import Verif.Lemmas.NtCompose
/-!
# `iso_to_nat` of Hindi
-/
namespace Nisaba.NT
open G2p Rom

namespace Rom
set_option maxRecDepth 100000
attribute [local irreducible] Brh.gr Psa.ph Ltn.tr
theorem st_AA_WI : StsL CR AA_WI := by unfold AA_WI; nt_stages
theorem st_RDH_RH : StsL CR RDH_RH := by unfold RDH_RH; nt_stages
end Rom

theorem hi_nat_tail (m : Mode) : Blk (OK M1) (Hi.natOps m) Lower := by
  have : Hi.natOps m = Hi.txn ++ ((SIBV_TO_SIBW ++ AA_WI ++ RDH_RH ++ TXN_TO_PSA_COMMON) ++
      (IGNORE_LONG ++ TRANSLIT_BY_PSA ++ CC_TO_CCH ++ CCH_TO_CHH ++ S_SHSH_TO_SSH ++
        printOnlyLtn m)) := by simp only [Hi.natOps, List.append_assoc]
  rw [this]
  exact Blk.after hi_txn ((Blk.after (stD1 (stsL_append (stsL_append (stsL_append st_SIBV_TO_SIBW
    st_AA_WI) st_RDH_RH) st_COMMON) crM1r) (midsTail m)).mono ok_M2_M1r)

namespace Acr

/-! ## Translits of letters are kept -/

/-- No grapheme, phoneme or lowercase translit. -/
def Fine : Str → Prop
  | [] => True
  | c :: s => c ≠ 60 ∧ c ≠ 61 ∧ c ≠ 123 ∧ (c = 96 → ∀ d ∈ s.head?, d < 97 ∨ 122 < d) ∧ byteLabel c ∧ Fine s

theorem Fine.over {x : Str} (h : Fine x) : Over byteLabel x := by
  induction x with
  | nil => intro c hc; cases hc
  | cons c x ih =>
    intro d hd
    rw [List.mem_cons] at hd
    rcases hd with rfl | hd
    exacts [h.2.2.2.2.1, ih h.2.2.2.2.2 d hd]

/-- Rules that do not apply. -/
def freeHead (l : Str) : Bool := match l with
  | [] => false
  | [c] => Nat.beq c 60 || Nat.beq c 61 || Nat.beq c 123
  | c :: d :: _ => Nat.beq c 60 || Nat.beq c 61 || Nat.beq c 123 ||
      (Nat.beq c 96 && Nat.ble 97 d && Nat.ble d 122)

theorem fine_no {l x : Str} (hl : freeHead l = true) (h : Fine (l ++ x)) : False := by
  match l with
  | [] => cases hl
  | [c] =>
    simp only [freeHead, Bool.or_eq_true, Nat.beq_eq] at hl
    obtain ⟨h1, h2, h3, _⟩ := h
    rcases hl with (hl | hl) | hl
    exacts [h1 hl, h2 hl, h3 hl]
  | c :: d :: t =>
    simp only [freeHead, Bool.or_eq_true, Bool.and_eq_true, Nat.beq_eq, Nat.ble_eq] at hl
    obtain ⟨h1, h2, h3, h4, _⟩ := h
    rcases hl with ((hl | hl) | hl) | ⟨⟨hl, h5⟩, h6⟩
    exacts [h1 hl, h2 hl, h3 hl, by have := h4 hl d rfl; omega]

theorem fine_cdr {rs : List (Str × Str)} (hr : (rs.all fun r => freeHead r.1) = true) {C : Cx Nat}
    {x : Str} (hx : Fine x) {out y : Str} (h : Cdr (rules rs) C out x y) : y = out ++ x := by
  have hne : ∀ l r, rules rs l r → l ≠ [] := by
    intro l r hm he
    subst he
    have := List.all_eq_true.1 hr _ hm; cases this
  induction x generalizing out with
  | nil => rw [cdr_end hne h, List.append_nil]
  | cons c x ih =>
    have := ih hx.2.2.2.2.2 (cdr_copy hne (fun l r rest' hm he _ _ =>
      fine_no (List.all_eq_true.1 hr _ hm) (he ▸ hx)) h)
    rw [this]; simp

/-- Relations that keep such strings. -/
def IdF (R : Rel) : Prop := ∀ x, Fine x → ∀ y, R x y ↔ y = x

/-- Lists of such relations. -/
def IdL (rs : List Rel) : Prop := ∀ R ∈ rs, IdF R

theorem idF_of {rs : List (Str × Str)} (hr : (rs.all fun r => freeHead r.1) = true) (L R : Lang) :
    IdF (cdrewrite (rules rs) L R) := by
  intro x hx y
  constructor
  · intro h; simpa using fine_cdr hr hx h.2.2
  · rintro rfl
    obtain ⟨z, hz⟩ := cdr_exists (rules rs) (ctxOf L R) [] y
    have := fine_cdr hr hx hz
    rw [List.nil_append] at this
    subst this
    exact ⟨hx.over, hx.over, hz⟩

theorem idL_nil : IdL [] := by intro R hR; cases hR
theorem idL_cons {R : Rel} {rs : List Rel} (h : IdF R) (k : IdL rs) : IdL (R :: rs) := by
  intro S hS
  rw [List.mem_cons] at hS
  rcases hS with rfl | hS
  exacts [h, k S hS]
theorem idL_append {rs ss : List Rel} (h : IdL rs) (k : IdL ss) : IdL (rs ++ ss) := by
  intro R hR
  rw [List.mem_append] at hR
  rcases hR with hR | hR
  exacts [h R hR, k R hR]

theorem idL_compose {rs ss : List Rel} (h : IdL rs) {x : Str} (hx : Fine x) (z : Str) :
    compose (rs ++ ss) x z ↔ compose ss x z := by
  rw [compose_append]
  have key : ∀ y, compose rs x y ↔ y = x := by
    induction rs with
    | nil => intro y; exact eq_comm
    | cons R rs ih =>
      intro y
      rw [compose_cons]
      constructor
      · rintro ⟨u, hu, hy⟩
        rw [(h R (by simp) x hx u).1 hu] at hy
        exact (ih (fun S hS => h S (by simp [hS])) y).1 hy
      · rintro rfl
        exact ⟨y, (h R (by simp) y hx y).2 rfl, (ih (fun S hS => h S (by simp [hS])) y).2 rfl⟩
  constructor
  · rintro ⟨u, hu, hz⟩; rw [(key u).1 hu] at hz; exact hz
  · intro hz; exact ⟨x, (key x).2 rfl, hz⟩

macro "id_stages" : tactic => `(tactic|
  (repeat refine idL_cons (by nt_norm; exact idF_of (by decide +kernel) _ _) ?_
   exact idL_nil))

section
set_option maxRecDepth 100000
attribute [local irreducible] Brh.gr Psa.ph Ltn.tr

theorem id_AI : IdL AI_TO_EH_LONG := by unfold AI_TO_EH_LONG; id_stages
theorem id_AU : IdL AU_TO_OH_LONG := by unfold AU_TO_OH_LONG; id_stages
theorem id_A_TO_EC : IdL A_TO_EC := by unfold A_TO_EC; id_stages
theorem id_VOCALIC_I : IdL VOCALIC_I := by unfold VOCALIC_I vocalic; id_stages
theorem id_ANUSVARA : IdL ANUSVARA_ASSIMILATION := by
  unfold ANUSVARA_ASSIMILATION assimilation assignNasal; id_stages
theorem id_processSchwa (o c : Lang) : IdL (processSchwa o c) := by
  unfold processSchwa schwaEow schwaBetween vocalSchwa silentSchwa; id_stages
theorem id_SCHWA_EC : IdL SCHWA_EC := by unfold SCHWA_EC defaultSchwa; id_stages
theorem id_DENTAL : IdL DEFAULT_ANUSVARA_DENTAL := by
  unfold DEFAULT_ANUSVARA_DENTAL assignNasal; id_stages
theorem id_FINAL : IdL FINAL_ANUSVARA_NASALIZATION := by
  unfold FINAL_ANUSVARA_NASALIZATION; id_stages
theorem id_JNY : IdL JNY_TO_GY := by unfold JNY_TO_GY rewriteJny; id_stages
theorem id_PHPH : IdL PHPH_TO_FF := by unfold PHPH_TO_FF; id_stages
theorem id_SIBV : IdL SIBV_TO_SIBW := by unfold SIBV_TO_SIBW; id_stages
theorem id_AA_WI : IdL AA_WI := by unfold AA_WI; id_stages
theorem id_RDH_RH : IdL RDH_RH := by unfold RDH_RH; id_stages
theorem id_DIPHTHONG : IdL DIPHTHONG_GR := by unfold DIPHTHONG_GR; id_stages
theorem id_NON_LABIAL : IdL NON_LABIAL_ANUSVARA := by unfold NON_LABIAL_ANUSVARA; id_stages
theorem id_RDH_DH : IdL RDH_DH := by unfold RDH_DH; id_stages
theorem id_IGNORE : IdL IGNORE_LONG := by unfold IGNORE_LONG; id_stages
theorem id_CC : IdL CC_TO_CCH := by unfold CC_TO_CCH; id_stages
theorem id_CCH : IdL CCH_TO_CHH := by unfold CCH_TO_CHH; id_stages
theorem id_SSH : IdL S_SHSH_TO_SSH := by unfold S_SHSH_TO_SSH; id_stages
end

set_option maxRecDepth 100000 in
theorem psa_free : (psaRules.all fun r => freeHead r.1) = true := by decide +kernel

theorem id_PSA : IdL TRANSLIT_BY_PSA := by
  rw [tbp_eq]
  exact idL_cons (idF_of psa_free _ _) idL_nil

theorem id_natOps : ∃ rs, IdL rs ∧ ∀ m, Hi.natOps m = rs ++ printOnlyLtn m := by
  refine ⟨Hi.txn ++ SIBV_TO_SIBW ++ AA_WI ++ RDH_RH ++ TXN_TO_PSA_COMMON ++ IGNORE_LONG ++
    TRANSLIT_BY_PSA ++ CC_TO_CCH ++ CCH_TO_CHH ++ S_SHSH_TO_SSH, ?_, fun m => rfl⟩
  have h1 : IdL Hi.txn := idL_append (idL_append (idL_append (idL_append (idL_append (idL_append
    (idL_append (idL_append (idL_append (idL_append id_AI id_AU) id_A_TO_EC) id_VOCALIC_I)
    id_ANUSVARA) (id_processSchwa _ _)) id_SCHWA_EC) id_DENTAL) id_FINAL) id_JNY) id_PHPH
  have h2 : IdL TXN_TO_PSA_COMMON := idL_append (idL_append id_DIPHTHONG id_NON_LABIAL) id_RDH_DH
  exact idL_append (idL_append (idL_append (idL_append (idL_append (idL_append (idL_append
    (idL_append (idL_append h1 id_SIBV) id_AA_WI) id_RDH_RH) h2) id_IGNORE) id_PSA) id_CC) id_CCH)
    id_SSH

/-! ## Printing -/

set_option maxRecDepth 100000 in
theorem set_upper : (acronymSet.all fun p => match p.2 with
    | c :: _ => Nat.ble 65 c && Nat.ble c 90 && nameB (c :: a!"_uc") &&
        Ltn.CHARS.any (fun d => seq d.tr (96 :: c :: a!"_uc`")) && seq (glyphOf (c :: a!"_uc")) [c]
    | [] => false) = true := by decide +kernel

theorem upper_of {os : List (List Str)} {c : Nat} (h : (os, c :: a!"_UC") ∈ acronymSet) :
    (65 ≤ c ∧ c ≤ 90) ∧ (Tok.t (c :: a!"_uc")).plain ∧
    (enc1 (.t (c :: a!"_uc")) = Ltn.tr (c :: a!"_UC")) ∧
    ∀ m, (enc1 (.t (c :: a!"_uc")), prTok m (.t (c :: a!"_uc"))) ∈ prTab m ∧
      prTok m (.t (c :: a!"_uc")) = [c] := by
  have h1 := List.all_eq_true.1 set_upper _ h
  simp only [Bool.and_eq_true, Nat.ble_eq, List.any_eq_true] at h1
  obtain ⟨⟨⟨⟨h1, h2⟩, h3⟩, d, hd, h4⟩, h5⟩ := h1
  obtain ⟨_, c', hc', ht, _⟩ := alias_of h
  injection hc' with hc' _
  subst hc'
  have he : enc1 (.t (c :: a!"_uc")) = Ltn.tr (c :: a!"_UC") := by rw [ht]; rfl
  refine ⟨⟨h1, h2⟩, nameB_iff.1 h3, he, fun m => ?_⟩
  have hg : prTok m (.t (c :: a!"_uc")) = [c] := by
    rw [prTok, seq_eq.1 h5]
    exact labels_ascii m (by simp; omega)
  refine ⟨?_, hg⟩
  rw [hg]
  refine List.mem_map.2 ⟨d, hd, ?_⟩
  have h6 := List.all_eq_true.1 ltn_names d hd
  rw [Bool.and_eq_true] at h6
  have h7 : d.typ = c :: a!"_uc" := by
    have h8 := seq_eq.1 h4
    simp only [Chr.tr, encloseTranslit, GRAVE] at h8
    injection h8 with _ h8
    exact List.append_inj_left' (show d.typ ++ [96] = (c :: a!"_uc") ++ [96] from h8) rfl
  rw [seq_eq.1 h6.2, h7, seq_eq.1 h5, seq_eq.1 h4, labels_ascii m (by simp; omega)]
  rfl

/-- The tokens of letters. -/
def toksOf (y : Str) : List Tok := y.map fun c => .t (c :: a!"_uc")

theorem dec_toks {w : List Str} {y : Str} (h : Dec w y) :
    T y = enc (toksOf y) ∧ Plain (toksOf y) ∧ Fine (T y) ∧ (∀ c ∈ y, 65 ≤ c ∧ c ≤ 90) ∧
    ∀ m, (∀ a ∈ toksOf y, (enc1 a, prTok m a) ∈ prTab m) ∧ (toksOf y).flatMap (prTok m) = y := by
  induction h with
  | nil =>
    have e : toksOf [] = [] := rfl
    rw [e]
    exact ⟨rfl, (fun a ha => by cases ha), trivial, (fun c hc => by cases hc), fun m => ⟨(fun a ha => by cases ha), rfl⟩⟩
  | @cons os c v w y h _ _ ih =>
    obtain ⟨i1, i2, i3, i4, i5⟩ := ih
    obtain ⟨h1, h2, h3, h4⟩ := upper_of h
    have eT : T (c :: y) = enc1 (.t (c :: a!"_uc")) ++ T y := by rw [h3]; simp [T]
    refine ⟨?_, ?_, ?_, ?_, fun m => ⟨?_, ?_⟩⟩
    · rw [eT, i1]; rfl
    · exact plain_cons.2 ⟨h2, i2⟩
    · rw [eT]
      have hT : ∀ d ∈ (T y).head?, d < 97 ∨ 122 < d := by
        intro d hd
        cases y with
        | nil => simp [T] at hd
        | cons c' y' =>
          rw [i1] at hd
          have : d = 96 := by
            simpa [toksOf, enc, enc1, encloseTranslit, GRAVE] using hd.symm
          omega
      have one : ∀ (c : Nat) (s : Str), c ≠ 60 → c ≠ 61 → c ≠ 123 → c ≠ 96 → byteLabel c → Fine s →
          Fine (c :: s) := fun c s a1 a2 a3 a4 a5 a6 => ⟨a1, a2, a3, fun h => absurd h a4, a5, a6⟩
      have gr : ∀ s : Str, (∀ d ∈ s.head?, d < 97 ∨ 122 < d) → Fine s → Fine (96 :: s) :=
        fun s a1 a2 => ⟨by decide, by decide, by decide, fun _ => a1, by decide, a2⟩
      show Fine (96 :: c :: 95 :: 117 :: 99 :: 96 :: T y)
      refine gr _ (fun d hd => ?_) (one _ _ (by omega) (by omega) (by omega) (by omega)
        (by unfold byteLabel; omega) (one _ _ (by decide) (by decide) (by decide) (by decide) (by decide)
        (one _ _ (by decide) (by decide) (by decide) (by decide) (by decide)
        (one _ _ (by decide) (by decide) (by decide) (by decide) (by decide) (gr _ hT i3)))))
      have : c = d := by simpa using hd
      omega
    · intro d hd
      rw [List.mem_cons] at hd
      rcases hd with rfl | hd
      exacts [h1, i4 d hd]
    · intro a ha
      rw [toksOf, List.map_cons, List.mem_cons] at ha
      rcases ha with rfl | ha
      exacts [(h4 m).1, (i5 m).1 a ha]
    · rw [toksOf, List.map_cons, List.flatMap_cons, (h4 m).2]
      exact congrArg (c :: ·) (i5 m).2

theorem print_upper (m : Mode) {w : List Str} {y : Str} (h : Dec w y) (z : Str) :
    compose (printOnlyLtn m) (T y) z ↔ z = y := by
  obtain ⟨h1, h2, _, _, h5⟩ := dec_toks h
  obtain ⟨h6, h7⟩ := h5 m
  have hx := extract_iff h2
  have hf : (toksOf y).filter isR = toksOf y := by
    rw [List.filter_eq_self]
    intro a ha
    obtain ⟨c, _, rfl⟩ := List.mem_map.1 ha
    rfl
  rw [hf] at hx
  rw [h1, printOnlyLtn, printOnlyGlyph, compose_cons]
  constructor
  · rintro ⟨u, hu, hz⟩
    change printGlyph m Ltn.CHARS _ _ at hz
    rw [printGlyph_eq] at hz
    have := hx.2 u hu (fun hc => (pr_chars hz hc).1 rfl) (fun hc => (pr_chars hz hc).2.1 rfl)
    subst this
    rw [(starR_toks (prTab_tok m) h2 hz).1, h7]
  · rintro rfl
    refine ⟨_, hx.1, ?_⟩
    show printGlyph m Ltn.CHARS _ _
    rw [printGlyph_eq]
    have := starR_toks_out h6
    rwa [h7] at this

/-! ## Texts -/

/-- The right side of a grapheme. -/
def Bph (g : Str) : Str := (chOf g).ph

def goodB (c : Chr) : Bool := nameB c.typ && (match c.ph with | d :: _ => Nat.beq d 123 | [] => false) &&
  (c.ph.all fun d => !Nat.beq d 60 && !Nat.beq d 61 && Nat.ble 1 d && Nat.ble d 255) &&
  (match toks c.ph with | some ts => seq c.ph (enc ts) && ts.all (fun a => match a with
    | .p s => s.all (fun d => (Nat.ble 65 d && Nat.ble d 90) || (Nat.ble 97 d && Nat.ble d 122) ||
        (a!"_+.*-&!:").any (Nat.beq d)) | _ => false) | none => false)

set_option maxRecDepth 100000 in
theorem brh_good : (Brh.CHAR.all goodB) = true := by decide +kernel

theorem good_of {c : Chr} (h : c ∈ Brh.CHAR) : Good Bph c.typ := by
  have h1 := List.all_eq_true.1 brh_good c h
  have hph : Bph c.typ = c.ph := (char_ok h).2.1
  simp only [goodB, Bool.and_eq_true] at h1
  obtain ⟨⟨⟨h1, h2⟩, h3⟩, h4⟩ := h1
  refine ⟨nameB_iff.1 h1, ?_, ?_, ?_⟩
  · rw [hph]
    cases hp : c.ph with
    | nil => rw [hp] at h2; cases h2
    | cons d t => rw [hp] at h2; exact ⟨t, by rw [Nat.eq_of_beq_eq_true h2]⟩
  · rw [hph]
    intro d hd
    have := List.all_eq_true.1 h3 d hd
    simp only [Bool.and_eq_true, Bool.not_eq_true', Nat.ble_eq] at this
    exact ⟨Nat.ne_of_beq_eq_false this.1.1.1, Nat.ne_of_beq_eq_false this.1.1.2, this.1.2, by omega⟩
  · rw [hph]
    revert h4
    cases toks c.ph with
    | none => intro h; cases h
    | some ts =>
      intro h4
      simp only [Bool.and_eq_true] at h4
      rw [seq_eq.1 h4.1]
      have h5 := h4.2
      clear h4
      induction ts with
      | nil => exact .nil
      | cons a ts ih =>
        rw [List.all_cons, Bool.and_eq_true] at h5
        rw [enc_cons]
        refine .cons ?_ (ih h5.2)
        cases a with
        | p s =>
          refine .inl ⟨[CURLYL], _, rfl, rfl, s, _, rfl, ?_, rfl⟩
          intro d hd
          have := List.all_eq_true.1 h5.1 d hd
          simp only [Bool.or_eq_true, Bool.and_eq_true, Nat.ble_eq, List.any_eq_true] at this
          rcases this with (h | h) | ⟨e, he, h⟩
          · exact .inl h
          · exact .inr (.inl h)
          · rw [Nat.eq_of_beq_eq_true h]; exact .inr (.inr he)
        | g s => simp at h5
        | eq => simp at h5
        | t s => simp at h5

/-- Names of graphemes. -/
def names (ts : List Tok) : List Str := ts.flatMap gproj

theorem typ_X {ts : List Tok} (h : Typ ts) :
    enc (ts.flatMap alTok) = X Bph (names ts) ∧ (∀ g ∈ names ts, Good Bph g) ∧
      enc ts = (names ts).flatMap encloseGrapheme := by
  induction ts with
  | nil => exact ⟨rfl, by simp [names], rfl⟩
  | cons a ts ih =>
    obtain ⟨c, hc, rfl⟩ := h a (by simp)
    obtain ⟨i1, i2, i3⟩ := ih fun b hb => h b (by simp [hb])
    refine ⟨?_, ?_, ?_⟩
    · rw [List.flatMap_cons, enc_append, i1, alTok_enc hc]
      show _ = X Bph (c.typ :: names ts)
      rw [X_cons, show Bph c.typ = c.ph from (char_ok hc).2.1]
      simp [Chr.gr, encloseGrapheme, LT, GT, EQ]
    · intro g hg
      change g ∈ c.typ :: names ts at hg
      rw [List.mem_cons] at hg
      rcases hg with rfl | hg
      exacts [good_of hc, i2 g hg]
    · rw [enc_cons, i3]; rfl

/-- The output of Hindi for a text. -/
theorem hi_nat_iff (m : Mode) {ts : List Tok} (h : Typ ts) {x : Str}
    (hx : ∀ u, compose (isoToTxn m) x u ↔ u = enc (ts.flatMap alTok)) :
    (∀ y, Dec (names ts) y → ∀ z, compose (Hi.nat m) x z ↔ z = y) ∧
    ((¬ ∃ y, Dec (names ts) y) → ∀ z, compose (Hi.nat m) x z ↔ compose (isoToTxn m ++ Hi.natOps m) x z) := by
  obtain ⟨h1, h2, _⟩ := typ_X h
  have key : ∀ z, compose (Hi.nat m) x z ↔ ∃ u, compose HI_ACR_TYP_TO_TR (X Bph (names ts)) u ∧
      compose (Hi.natOps m) u z := by
    intro z
    rw [Hi.nat, List.append_assoc, compose_append]
    constructor
    · rintro ⟨u, hu, hz⟩
      rw [(hx u).1 hu, h1] at hz
      exact (compose_append ..).1 hz
    · intro hz
      exact ⟨_, (hx _).2 rfl, h1 ▸ (compose_append ..).2 hz⟩
  constructor
  · intro y hy z
    rw [key]
    obtain ⟨rs, hrs, he⟩ := id_natOps
    have hf := (dec_toks hy).2.2.1
    have hp : ∀ z, compose (Hi.natOps m) (T y) z ↔ z = y := fun z => by
      rw [he, idL_compose hrs hf, print_upper m hy]
    constructor
    · rintro ⟨u, hu, hz⟩
      rcases (acr_stage h2 u).1 hu with ⟨y', hy', rfl⟩ | ⟨hno, _⟩
      · rw [dec_unique hy hy'] at hp ⊢; exact (hp z).1 hz
      · exact absurd ⟨y, hy⟩ hno
    · intro hz
      exact ⟨T y, (acr_stage h2 _).2 (.inl ⟨y, hy, rfl⟩), (hp z).2 hz⟩
  · intro hno z
    rw [key, compose_append]
    constructor
    · rintro ⟨u, hu, hz⟩
      rcases (acr_stage h2 u).1 hu with ⟨y', hy', _⟩ | ⟨_, rfl⟩
      · exact absurd ⟨y', hy'⟩ hno
      · exact ⟨_, (hx _).2 rfl, h1 ▸ hz⟩
    · rintro ⟨u, hu, hz⟩
      rw [(hx u).1 hu, h1] at hz
      exact ⟨_, (acr_stage h2 _).2 (.inr ⟨hno, rfl⟩), hz⟩

end Acr
end Nisaba.NT
