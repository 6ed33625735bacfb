import Verif.Lemmas.NtStages2
/-!
# Rules that insert a sequence
-/
namespace Nisaba.NT

/-- Rewriting always has an output. -/
theorem cdr_exists {α : Type} (τ : List α → List α → Prop) (C : Cx α) (out rest : List α) :
    ∃ y, Cdr τ C out rest y := by
  induction hn : rest.length using Nat.strongRecOn generalizing out rest with
  | _ n ih =>
    match rest with
    | [] =>
      by_cases h : ∃ r, τ [] r ∧ C.left out ∧ C.right []
      · obtain ⟨r, h1, h2, h3⟩ := h; exact ⟨_, .insEnd h1 h2 h3⟩
      · exact ⟨out, .done fun r h1 h2 h3 => h ⟨r, h1, h2, h3⟩⟩
    | c :: rest =>
      by_cases h : ∃ l r rest', τ l r ∧ c :: rest = l ++ rest' ∧ C.left out ∧ C.right rest'
      · obtain ⟨l, r, rest', h1, h2, h3, h4⟩ := h
        by_cases hl : l = []
        · subst hl
          rw [List.nil_append] at h2
          subst h2
          obtain ⟨y, hy⟩ := ih rest.length (by rw [← hn]; simp) (out ++ r ++ [c]) rest rfl
          exact ⟨y, .ins h1 h3 h4 hy⟩
        · have : rest'.length < n := by
            rw [← hn, h2, List.length_append]
            have := List.length_pos_iff.2 hl
            omega
          obtain ⟨y, hy⟩ := ih _ this (out ++ r) rest' rfl
          exact ⟨y, h2 ▸ .apply h1 hl h3 h4 hy⟩
      · obtain ⟨y, hy⟩ := ih rest.length (by rw [← hn]; simp) (out ++ [c]) rest rfl
        refine ⟨y, .copy ?_ hy⟩
        intro l r rest' h1 h2 h3 h4
        exact h ⟨l, r, rest', h1, h2, h3, h4⟩

/-- Inserting one string is single valued. -/
theorem cdr_ins_det {τ : Rel} {r : Str} (hτ : ∀ l x, τ l x → l = [] ∧ x = r) {C : Cx Nat}
    {out rest y z : Str} (hy : Cdr τ C out rest y) (hz : Cdr τ C out rest z) : y = z := by
  induction hy generalizing z with
  | @done out h =>
    generalize hr : ([] : Str) = rest at hz
    cases hz with
    | done => rfl
    | insEnd h' hl' hr' => exact absurd hr' (h _ h' hl')
    | apply h' hl' => exact absurd (hτ _ _ h').1 hl'
    | ins h' => cases hr
    | copy => cases hr
  | @insEnd out r' h hl hr0 =>
    generalize hr : ([] : Str) = rest at hz
    cases hz with
    | done h' => exact absurd hr0 (h' _ h hl)
    | insEnd h' hl' hr' => rw [show r' = r from (hτ _ _ h).2]; rw [show _ = r from (hτ _ _ h').2]
    | apply h' hl' => exact absurd (hτ _ _ h').1 hl'
    | ins h' => cases hr
    | copy => cases hr
  | apply h hl => exact absurd (hτ _ _ h).1 hl
  | @ins out r' rest fin c h hl hr0 k ih =>
    generalize hr : c :: rest = rest0 at hz
    cases hz with
    | done => cases hr
    | insEnd => cases hr
    | apply h' hl' => exact absurd (hτ _ _ h').1 hl'
    | ins h' hl' hr' k' =>
      injection hr with h1 h2
      subst h1; subst h2
      apply ih
      rw [show r' = r from (hτ _ _ h).2]
      rwa [show _ = r from (hτ _ _ h').2] at k'
    | copy h' k' =>
      injection hr with h1 h2
      subst h1; subst h2
      exact absurd hr0 (h' [] _ _ h rfl hl)
  | @copy out rest fin c h k ih =>
    generalize hr : c :: rest = rest0 at hz
    cases hz with
    | done => cases hr
    | insEnd => cases hr
    | apply h' hl' => exact absurd (hτ _ _ h').1 hl'
    | ins h' hl' hr' k' =>
      injection hr with h1 h2
      subst h1; subst h2
      exact absurd hr' (h [] _ _ h' rfl hl')
    | copy h' k' => injection hr with h1 h2; subst h1; subst h2; exact ih k'

/-- A place before a symbol other than a translit, or at the end, is a place of the sequence. -/
theorem enc_boundary {ts : List Tok} {u v : Str} (hts : Plain ts) (h : enc ts = u ++ v)
    (hv : v = [] ∨ ∃ c w, v = c :: w ∧ opener c = true) :
    ∃ ut vt, ts = ut ++ vt ∧ u = enc ut ∧ v = enc vt := by
  rcases hv with rfl | ⟨c, w, rfl, hc⟩
  · exact ⟨ts, [], by simp, by simpa using h.symm, rfl⟩
  · induction ts generalizing u with
    | nil => have := congrArg List.length h; simp [enc_nil] at this
    | cons b ts ih =>
      rw [plain_cons] at hts
      by_cases hu : u = []
      · subst hu; exact ⟨[], b :: ts, rfl, rfl, h.symm⟩
      · rw [enc_cons] at h
        have hcase : ∃ u', u = enc1 b ++ u' ∧ enc ts = u' ++ c :: w := by
          rcases List.append_eq_append_iff.1 h with ⟨x, h1, h2⟩ | ⟨x, h1, h2⟩
          · exact ⟨x, h1, h2⟩
          · cases x with
            | nil => exact ⟨[], by simpa using h1.symm, by simpa using h2.symm⟩
            | cons d x =>
              exfalso
              injection h2 with h3 _
              subst h3
              rw [enc1_tail_not_opener hts.1 hu h1 c (by simp)] at hc
              cases hc
        obtain ⟨u', rfl, h2⟩ := hcase
        obtain ⟨ut, vt, rfl, rfl, h3⟩ := ih hts.2 h2
        exact ⟨b :: ut, vt, rfl, rfl, h3⟩

/-- Inserting a sequence keeps a property of sequences. -/
theorem cdr_ins_closed {P : List Tok → Prop} {rt : List Tok} {C : Cx Nat}
    (hP : ∀ ts, P ts → Plain ts)
    (hc : ∀ rest, Over byteLabel rest → C.right rest → rest = [] ∨ ∃ c w, rest = c :: w ∧ opener c = true)
    (hok : ∀ o q, C.left (enc o) → C.right (enc q) → P (o ++ q) → P (o ++ rt ++ q))
    {out rest y : Str} (h : Cdr (cross (str []) (str (enc rt))) C out rest y) (ws : List Tok)
    (hw : out ++ rest = enc ws) (hp : P ws) : ∃ us, y = enc us ∧ P us := by
  induction h generalizing ws with
  | done => exact ⟨ws, by simpa using hw, hp⟩
  | insEnd h hl hr =>
    have := h.2
    subst this
    rw [List.append_nil] at hw
    refine ⟨ws ++ rt, by rw [hw, enc_append], ?_⟩
    have := hok ws [] (hw ▸ hl) hr (by simpa using hp)
    simpa using this
  | apply h hl => exact absurd h.1 hl
  | @ins out r rest fin c h hl hr k ih =>
    have := h.2
    subst this
    obtain ⟨o, q, rfl, rfl, h3⟩ := enc_boundary (hP _ hp) hw.symm (hc _ (fun x hx => enc_over (hP _ hp) x (hw ▸ List.mem_append_right _ hx)) hr)
    refine ih (o ++ rt ++ q) ?_ (hok o q hl (h3 ▸ hr) hp)
    rw [enc_append, enc_append, ← h3]
    simp
  | copy h k ih => exact ih ws (by rw [← hw]; simp) hp

/-! ## `WF_VIRAMA_U` -/

/-- The inserted alignment. -/
def Ut : List Tok := [.g a!"u", .eq, .p a!"u"]

/-- Extended by graphemes `u` only. -/
def UExt (a b : List Str) : Prop :=
  a.Sublist b ∧ a.filter (fun s => !seq s a!"u") = b.filter (fun s => !seq s a!"u")

/-- A word final place is before a symbol or at the end. -/
theorem ctx_eow {L : Lang} {rest : Str} (ho : Over byteLabel rest)
    (h : (ctxOf L (cat SKIP EOW)).right rest) :
    rest = [] ∨ ∃ c w, rest = c :: w ∧ (c = 60 ∨ c = 61) := by
  obtain ⟨x, p, he, u, v, rfl, hu, w, z, rfl, hw, rfl⟩ := h
  cases rest with
  | nil => exact .inl rfl
  | cons d rest =>
    right
    rcases skip_head hu with rfl | ⟨c, u', rfl, hc⟩
    · have hw' : w = [] ∨ ∃ w', w = 61 :: w' := by
        rcases hw with (⟨a, b, rfl, rfl, _⟩ | rfl) | rfl
        · exact .inr ⟨_, rfl⟩
        · exact .inl rfl
        · exact .inl rfl
      rcases hw' with rfl | ⟨w', rfl⟩
      · exfalso
        injection he with h1 h2
        have := ho d (by simp)
        rw [h1] at this
        exact absurd this (by decide)
      · injection he with h1 _
        exact ⟨d, rest, rfl, .inr h1⟩
    · injection he with h1 _; exact ⟨d, rest, rfl, by omega⟩

/-- The last character of words that end a right side. -/
def endCh (c : Nat) : Bool := Nat.beq c 61 || Nat.beq c 125 || Nat.beq c 96
def Ends1 (A : Lang) : Prop := ∀ y, A y → ∃ w c, y = w ++ [c] ∧ endCh c = true
def Ends0 (A : Lang) : Prop := ∀ y, A y → y = [] ∨ ∃ w c, y = w ++ [c] ∧ endCh c = true

theorem ends1_cat {A B : Lang} (h : Ends1 B) : Ends1 (cat A B) := by
  rintro _ ⟨u, v, rfl, hu, hv⟩
  obtain ⟨w, c, rfl, hc⟩ := h v hv
  exact ⟨u ++ w, c, by simp, hc⟩

theorem ends1_cat0 {A B : Lang} (h : Ends1 A) (k : Ends0 B) : Ends1 (cat A B) := by
  rintro _ ⟨u, v, rfl, hu, hv⟩
  rcases k v hv with rfl | ⟨w, c, rfl, hc⟩
  · obtain ⟨w, c, rfl, hc⟩ := h u hu
    exact ⟨w, c, by simp, hc⟩
  · exact ⟨u ++ w, c, by simp, hc⟩

theorem ends0_star {A : Lang} (h : Ends0 A) : Ends0 (Star A) := by
  intro y hy
  induction hy with
  | nil => exact .inl rfl
  | cons hu _ ih =>
    rcases ih with rfl | ⟨w, c, rfl, hc⟩
    · simpa using h _ hu
    · right; exact ⟨_ ++ w, c, by rw [List.append_assoc], hc⟩

theorem ends1_eq : Ends1 (str [EQ]) := by
  rintro _ rfl; exact ⟨[], 61, rfl, rfl⟩

theorem Ends1.ends0 {A : Lang} (h : Ends1 A) : Ends0 A := fun y hy => .inr (h y hy)

theorem ends0_ques {A : Lang} (h : Ends0 A) : Ends0 (ques A) := by
  rintro y (hy | rfl)
  exacts [h y hy, .inl rfl]

theorem ends0_rsyms : Ends0 R_SYMS := by
  refine ends0_star ?_
  rintro y (⟨a, b, rfl, rfl, c, d, rfl, _, rfl⟩ | ⟨a, b, rfl, rfl, c, d, rfl, _, rfl⟩)
  · exact .inr ⟨_ :: c, 125, rfl, rfl⟩
  · exact .inr ⟨_ :: c, 96, rfl, rfl⟩

theorem ends0_skip : Ends0 SKIP := by
  rintro y (h | h)
  · exact ends0_ques (ends1_cat ends1_eq).ends0 y h
  · exact ends0_ques (ends1_cat0 ends1_eq ends0_rsyms).ends0 y h

set_option maxRecDepth 100000 in
theorem all_ends : (Psa.PHONEMES.all fun p => (p.ph.getLast?.any endCh)) = true := by decide +kernel

theorem ends0_all : Ends0 Psa.lALL := by
  rintro y ⟨p, hp, rfl⟩
  have h := List.all_eq_true.1 all_ends p hp
  right
  cases hl : p.ph.getLast? with
  | none => rw [hl] at h; cases h
  | some c =>
    rw [hl] at h
    obtain ⟨w, hw⟩ := List.getLast?_eq_some_iff.1 hl
    exact ⟨w, c, hw, h⟩

theorem srun_g {o : List Tok} (h : srun .s o = .g) : ∃ o' s, o = o' ++ [.g s] := by
  rcases List.eq_nil_or_concat o with rfl | ⟨o', a, rfl⟩
  · cases h
  · rw [List.concat_eq_append, srun_append] at h
    cases a with
    | g s => exact ⟨o', s, by simp⟩
    | eq => exfalso; generalize srun .s o' = q at h; cases q <;> simp [srun, σ] at h
    | p s => exfalso; generalize srun .s o' = q at h; cases q <;> simp [srun, σ] at h
    | t s => exfalso; generalize srun .s o' = q at h; cases q <;> simp [srun, σ] at h

/-- A grapheme resets the automaton. -/
theorem δ_g {cfg : Cfg} {q q' : Q} (h : acc q = true) (h' : acc q' = true) (s : Str) :
    δ cfg q (cls (.g s)) = δ cfg q' (cls (.g s)) := by
  have key : ∀ x, x = Cl.ga ∨ x = Cl.g ∨ x = Cl.bad → δ cfg q x = δ cfg q' x := by
    rintro x (rfl | rfl | rfl)
    · cases q <;> first | (exact absurd h (by decide)) | (cases q' <;> first | rfl | exact absurd h' (by decide))
    · cases q <;> first | (exact absurd h (by decide)) | (cases q' <;> first | rfl | exact absurd h' (by decide))
    · rw [δ_bad, δ_bad]
  apply key
  rw [cls]
  cases seq s a!"a_i" <;> cases nameB s <;> simp

theorem acc_of_g {cfg : Cfg} {q : Q} {s : Str} {ts : List Tok}
    (h : acc (run cfg q (.g s :: ts)) = true) : acc q = true := by
  have key : ∀ x, x = Cl.ga ∨ x = Cl.g ∨ x = Cl.bad → acc q = false → δ cfg q x = .z := by
    rintro x (rfl | rfl | rfl) hq
    · cases q <;> first | rfl | cases hq
    · cases q <;> first | rfl | cases hq
    · rw [δ_bad]
  cases hq : acc q with
  | true => rfl
  | false =>
    exfalso
    rw [run, key _ (by rw [cls]; cases seq s a!"a_i" <;> cases nameB s <;> simp) hq, run_z] at h
    cases h

theorem ok_insert {o q : List Tok} (ho : srun .s o ≠ .g) (hq : q = [] ∨ ∃ s q', q = .g s :: q')
    (h : OK M1 (o ++ q)) : OK M1 (o ++ Ut ++ q) := by
  obtain ⟨h1, h2⟩ := h
  rw [run_append] at h1
  rw [srun_append] at h2
  have hU : ∀ q, acc q = true → run M1 q Ut = .c := by intro q hq; cases q <;> first | rfl | cases hq
  constructor
  · rw [run_append, run_append]
    rcases hq with rfl | ⟨s, q', rfl⟩
    · rw [hU _ (show acc (run M1 .c o) = true from h1)]; rfl
    · have ha := acc_of_g h1
      rw [hU _ ha, run, δ_g (q := .c) rfl ha s]
      exact h1
  · rw [srun_append, srun_append]
    have h3 : srun .s o = .s ∨ srun .s o = .r := by
      generalize srun .s o = x at ho h2 ⊢
      cases x
      · exact .inl rfl
      · exact absurd rfl ho
      · exact .inr rfl
      · rw [srun_z] at h2; cases h2
    have h4 : srun (srun .s o) Ut = .r := by rcases h3 with h3 | h3 <;> rw [h3] <;> rfl
    rw [h4]
    rcases hq with rfl | ⟨s, q', rfl⟩
    · rfl
    · rcases h3 with h3 | h3 <;> rw [h3] at h2 <;> exact h2

theorem UExt.insert {a b c : List Str} (h : UExt a (b ++ c)) : UExt a (b ++ [a!"u"] ++ c) := by
  refine ⟨h.1.trans ?_, ?_⟩
  · rw [List.append_assoc]
    exact List.Sublist.append_left (List.sublist_append_right _ _) _
  · rw [h.2]
    simp only [List.filter_append]
    simp [seq]

/-- The sequences of a relation: inputs with `P`, outputs with `Q` and left sides as in `E`. -/
def ClosedE (E : List Str → List Str → Prop) (P Q : List Tok → Prop) (R : Rel) : Prop :=
  ∀ ts, P ts → ∀ z, R (enc ts) z →
    ∃ us, z = enc us ∧ Q us ∧ E (ts.flatMap gproj) (us.flatMap gproj)

set_option maxRecDepth 100000 in
attribute [local irreducible] Brh.gr Psa.ph in
theorem WF_VIRAMA_U_eq : G2p.WF_VIRAMA_U =
    [cdrewrite (cross (str []) (str (enc Ut)))
      (cat (align Brh.lSCH_CONS (Star Psa.lALL)) SKIP) (cat SKIP EOW)] := by
  have h : (seq (Brh.gr a!"U" ++ ([EQ] ++ Psa.ph a!"U")) (enc Ut)) = true := by decide +kernel
  have h2 : align (gr a!"U") (ph a!"U") = str (enc Ut) := by
    rw [align, gr, ph, cat_str, cat_str, seq_eq.1 h]
  rw [G2p.WF_VIRAMA_U, h2]
  rfl

theorem st_WF_VIRAMA_U : ClosedE UExt (OK M1) (OK M1) (compose G2p.WF_VIRAMA_U) ∧
    Tot (OK M1) (compose G2p.WF_VIRAMA_U) ∧ Det (compose G2p.WF_VIRAMA_U) := by
  rw [WF_VIRAMA_U_eq]
  have closed : ∀ ts, OK M1 ts → ∀ z, Cdr (cross (str []) (str (enc Ut)))
      (ctxOf (cat (align Brh.lSCH_CONS (Star Psa.lALL)) SKIP) (cat SKIP EOW)) [] (enc ts) z →
      ∃ us, z = enc us ∧ OK M1 us ∧ UExt (ts.flatMap gproj) (us.flatMap gproj) := by
    intro ts hts z hz
    refine cdr_ins_closed (P := fun us => OK M1 us ∧ UExt (ts.flatMap gproj) (us.flatMap gproj))
      (fun _ h => h.1.plain) ?_ ?_ hz ts rfl ⟨hts, List.Sublist.refl _, rfl⟩
    · intro rest ho hr
      rcases ctx_eow ho hr with h | ⟨c, w, h, hc⟩
      · exact .inl h
      · exact .inr ⟨c, w, h, by rcases hc with rfl | rfl <;> rfl⟩
    · rintro o q hl hr ⟨hk, hu⟩
      have hpl := hk.plain
      rw [plain_append] at hpl
      -- the text before does not end in a grapheme
      have ho : srun .s o ≠ .g := by
        intro hg
        obtain ⟨o', s, rfl⟩ := srun_g hg
        obtain ⟨p, x, he, hx⟩ := hl
        obtain ⟨w, c, rfl, hc⟩ := ends1_cat0 (ends1_cat (ends1_cat0 ends1_eq
          (ends0_star ends0_all))) ends0_skip x hx
        have h1 := congrArg List.getLast? he
        rw [enc_append, enc_cons, enc_nil, enc1, encloseGrapheme, List.append_nil,
          ← List.append_assoc p, List.getLast?_concat,
          show bos :: (enc o' ++ LT :: (s ++ [GT])) = (bos :: (enc o' ++ LT :: s)) ++ [GT] by simp,
          List.getLast?_concat] at h1
        injection h1 with h1
        rw [← h1] at hc
        cases hc
      have hq : q = [] ∨ ∃ s q', q = .g s :: q' := by
        cases q with
        | nil => exact .inl rfl
        | cons a q =>
          right
          cases a with
          | g s => exact ⟨s, q, rfl⟩
          | eq =>
            exfalso
            have := hk.2
            rw [srun_append] at this
            generalize srun .s o = x at ho this
            cases x with
            | g => exact ho rfl
            | s => rw [srun, show σ .s .eq = .z from rfl, srun_z] at this; cases this
            | r => rw [srun, show σ .r .eq = .z from rfl, srun_z] at this; cases this
            | z => rw [srun_z] at this; cases this
          | p s =>
            exfalso
            rcases ctx_eow (enc_over hpl.2) hr with h | ⟨c, w, h, hc⟩
            · cases h
            · injection h with h _; rw [← h] at hc; exact absurd hc (by decide)
          | t s =>
            exfalso
            rcases ctx_eow (enc_over hpl.2) hr with h | ⟨c, w, h, hc⟩
            · cases h
            · injection h with h _; rw [← h] at hc; exact absurd hc (by decide)
      refine ⟨ok_insert ho hq hk, ?_⟩
      rw [List.flatMap_append] at hu
      rw [List.flatMap_append, List.flatMap_append]
      exact hu.insert
  refine ⟨fun ts hts z hz => closed ts hts z hz.2.2, ?_, ?_⟩
  · intro ts hts
    obtain ⟨y, hy⟩ := cdr_exists (cross (str []) (str (enc Ut)))
      (ctxOf (cat (align Brh.lSCH_CONS (Star Psa.lALL)) SKIP) (cat SKIP EOW)) [] (enc ts)
    obtain ⟨us, rfl, h1, _⟩ := closed ts hts y hy
    exact ⟨_, enc_over hts.plain, enc_over h1.plain, hy⟩
  · intro x y z hy hz
    exact cdr_ins_det (r := enc Ut) (fun l x h => h) hy.2.2 hz.2.2

end Nisaba.NT
