import Verif.Lemmas.DeromTr
/-!
# No vowel directly after a virama or an anusvara
-/
namespace Nisaba.NT
namespace Derom

/-- Independent vowels. -/
def isInd (a : Tok) : Bool := isT Brh.INDEPENDENT_VOWEL a
/-- The virama and the anusvara. -/
def isVA (a : Tok) : Bool := teq a (.t a!"vir") || isAns a
/-- Vowels that are not signs. -/
def isV (a : Tok) : Bool := isG Ltn.ASCII_VOWEL a || isInd a

/-- No vowel directly after a virama or an anusvara. -/
def NV (ts : List Tok) : Prop := ∀ a b, isVA a = true → isV b = true → ¬ Pair a b ts

/-- Executable form. -/
def nvF : List Tok → Bool
  | [] => true
  | a :: l => (match l with
    | [] => true
    | b :: _ => !(isVA a && isV b)) && nvF l

theorem nvF_ok {ts : List Tok} (h : nvF ts = true) : NV ts := by
  intro a b ha hb
  rintro ⟨u, v, rfl⟩
  induction u with
  | nil =>
    rw [List.nil_append, nvF, Bool.and_eq_true] at h
    have := h.1
    simp only [ha, hb] at this
    cases this
  | cons c u ih =>
    rw [List.cons_append, nvF.eq_def, Bool.and_eq_true] at h
    exact ih h.2

theorem NV.mid {A l B r : List Tok} {b : Tok} (h : NV (A ++ (l ++ B))) (hr : NV (b :: r))
    (h1 : isV b = true → (∃ a l', l = a :: l' ∧ isV a = true) ∨ ∀ u e, A = u ++ [e] → isVA e = false)
    (h2 : ∀ u e, b :: r = u ++ [e] → isVA e = true → ∀ c v, B = c :: v → isV c = false) :
    NV (A ++ (b :: r ++ B)) := by
  intro a c ha hc hp
  have hA : ¬ Pair a c A := fun h' => h a c ha hc (pair_append.2 (.inl h'))
  have hB : ¬ Pair a c B := fun h' => h a c ha hc (pair_append.2 (.inr (.inl (pair_append.2 (.inr (.inl h'))))))
  rcases pair_append.1 hp with h' | h' | ⟨u, v, h3, h4⟩
  · exact hA h'
  · rcases pair_append.1 h' with h' | h' | ⟨u, v, h3, h4⟩
    · exact hr a c ha hc h'
    · exact hB h'
    · have := h2 u a h3 ha c v h4
      rw [hc] at this; cases this
  · injection h4 with h4 h5
    subst h4
    rcases h1 hc with ⟨d, l', rfl, hd⟩ | h1
    · exact h a d ha hd (pair_append.2 (.inr (.inr ⟨u, l' ++ B, h3, rfl⟩)))
    · have := h1 u a h3
      rw [ha] at this; cases this

/-- The last symbol is neither a virama nor an anusvara. -/
def nvL (r : List Tok) : Bool := match r.reverse with
  | x :: _ => !isVA x
  | [] => false
def conCons : Con → Bool | .bp => true | .consNm => true | _ => false

/-- The condition of a pair of a rule. -/
def nvR (P F : Con) (p : List Tok × List Tok) : Bool := match p.1, p.2 with
  | a :: _, b :: r => nvF (b :: r) && (!isV b || (isV a || conSch P)) && (nvL (b :: r) || conCons F)
  | _, _ => false

/-- The condition of a rule. -/
def nvW (w : Rw) : Bool := match w.tok with
  | [([], r)] => (match r with | [.t s] => seq s a!"vir" | _ => false) &&
    (match w.following with | .onset => true | .onsetEow => true | _ => false)
  | rs => rs.all (nvR w.preceding w.following)

section
set_option maxRecDepth 100000
theorem sch_va : (Brh.SCHWA_BEARING.all fun c => !isVA (.t c.typ)) = true := by decide +kernel
theorem onset_v : (Brh.ONSET_CONSONANT.all fun c => !isV (.t c.typ)) = true := by decide +kernel
theorem cons_v : (Ltn.ASCII_CONS.all fun c => !isV (.g c.typ)) = true := by decide +kernel
theorem bp_v : (isV (.g a!"b") || isV (.g a!"p")) = false ∧ isV (.t a!"vir") = false := by decide +kernel
end

theorem sch_not_va {a : Tok} (h : isSch a = true) : isVA a = false := by
  obtain ⟨c, hc, rfl⟩ := isT_iff.1 h
  simpa using List.all_eq_true.1 sch_va c hc
theorem onset_not_v {a : Tok} (h : isT Brh.ONSET_CONSONANT a = true) : isV a = false := by
  obtain ⟨c, hc, rfl⟩ := isT_iff.1 h
  simpa using List.all_eq_true.1 onset_v c hc
theorem cons_not_v {F : Con} (h : conCons F = true) {c : Tok} {v : List Tok} (hr : rCtx F (c :: v) = true) :
    isV c = false := by
  have h0 := bp_v.1
  rw [Bool.or_eq_false_iff] at h0
  cases F <;> try cases h
  · rcases Bool.or_eq_true _ _ ▸ (show (teq c (.g a!"b") || teq c (.g a!"p")) = true from hr) with h | h
    · rw [teq_iff.1 h]; exact h0.1
    · rw [teq_iff.1 h]; exact h0.2
  · have h1 : isG Ltn.ASCII_CONS c = true := by
      have := show (isG Ltn.ASCII_CONS c && !(teq c (.g a!"n") || teq c (.g a!"m"))) = true from hr
      rw [Bool.and_eq_true] at this
      exact this.1
    obtain ⟨d, hd, rfl⟩ := isG_iff.1 h1
    simpa using List.all_eq_true.1 cons_v d hd

theorem nvL_not {r u : List Tok} {e : Tok} (h : nvL r = true) (he : r = u ++ [e]) : isVA e = false := by
  rw [nvL, he, List.reverse_append] at h
  simpa using h

theorem last_sch {rev u : List Tok} {e : Tok} (h : lCtx .schCons rev = true) (he : rev.reverse = u ++ [e]) :
    isVA e = false := by
  obtain ⟨a, r, rfl, ha⟩ := lCtx_sch h
  rw [List.reverse_cons] at he
  have := (List.append_inj' he rfl).2
  injection this with this _
  rw [← this]
  exact sch_not_va ha

theorem go_nv {rs : List (List Tok × List Tok)} {P F : Con} (hrs : rs.all (nvR P F) = true)
    {n : Nat} {rev rest : List Tok} (h : NV (rev.reverse ++ rest)) : NV (go rs P F n rev rest) := by
  induction n generalizing rev rest with
  | zero =>
    cases rest with
    | nil => simpa [go] using h
    | cons a rest => exact h
  | succ n ih =>
    cases rest with
    | nil => simpa [go] using h
    | cons c rest =>
      rw [go]
      cases hp : pick P F rev (c :: rest) rs with
      | none => exact ih (by simpa using h)
      | some q =>
        obtain ⟨rest', r⟩ := q
        obtain ⟨l, hm, he, hl, hr⟩ := pick_some hp
        have hs := List.all_eq_true.1 hrs _ hm
        apply ih
        rw [he] at h
        rw [List.reverse_append, List.reverse_reverse, List.append_assoc]
        cases l with
        | nil => cases hs
        | cons a l =>
          cases r with
          | nil => cases hs
          | cons b r =>
            simp only [nvR, Bool.and_eq_true, Bool.or_eq_true] at hs
            obtain ⟨⟨s1, s2⟩, s3⟩ := hs
            refine h.mid (nvF_ok s1) (fun hb => ?_) (fun u e hu he' c v hc => ?_)
            · rcases s2 with s2 | s2 | s2
              · rw [hb] at s2; cases s2
              · exact .inl ⟨a, l, rfl, s2⟩
              · rw [conSch_iff s2] at hl
                exact .inr fun u e => last_sch hl
            · rcases s3 with s3 | s3
              · rw [nvL_not s3 hu] at he'; cases he'
              · rw [hc] at hr
                exact cons_not_v s3 hr

theorem goIns_nv {P F : Con} (hF : F = .onset ∨ F = .onsetEow)
    {rev rest : List Tok} (h : NV (rev.reverse ++ rest)) :
    NV (goIns [.t a!"vir"] P F rev rest) := by
  induction rest generalizing rev with
  | nil =>
    rw [goIns, cond_eq_ite]
    split
    · rename_i hc
      rw [Bool.and_eq_true] at hc
      exfalso
      rcases hF with rfl | rfl <;> cases hc.2
    · simpa using h
  | cons a rest ih =>
    rw [goIns, cond_eq_ite]
    split
    · rename_i hc
      rw [Bool.and_eq_true] at hc
      apply ih
      have ha : isT Brh.ONSET_CONSONANT a = true := by
        rcases hF with rfl | rfl
        · exact hc.2
        · cases rest with
          | nil => exact hc.2
          | cons _ _ => cases hc.2
      rw [show (a :: ([Tok.t a!"vir"].reverse ++ rev)).reverse ++ rest =
        rev.reverse ++ ([Tok.t a!"vir"] ++ (a :: rest)) by simp]
      refine NV.mid (l := []) (by simpa using h) (nvF_ok rfl) (fun hb => ?_) (fun u e hu he c v hc => ?_)
      · rw [bp_v.2] at hb; cases hb
      · injection hc with hc _
        rw [← hc]
        exact onset_not_v ha
    · exact ih (by simpa using h)

theorem run_nv {w : Rw} (hok : w.ok = true) (hs : nvW w = true) {ts : List Tok} (h : NV ts) :
    NV (w.run ts) := by
  rcases tok_ne hok with ⟨r, ht⟩ | hne
  · rw [run_ins ht]
    rw [nvW, ht] at hs
    simp only [Bool.and_eq_true] at hs
    rw [Rw.ok, ht] at hok
    simp only [Bool.and_eq_true] at hok
    have hP : w.preceding = .schCons ∨ w.preceding = .bowSch := by
      have := hok.2
      cases hp : w.preceding <;> rw [hp] at this <;> first | exact .inl rfl | exact .inr rfl | cases this
    have hF : w.following = .onset ∨ w.following = .onsetEow := by
      have := hs.2
      cases hp : w.following <;> rw [hp] at this <;> first | exact .inl rfl | exact .inr rfl | cases this
    match r, hs.1 with
    | [.t s], h1 =>
      rw [seq_eq] at h1
      subst h1
      exact goIns_nv hF (by simpa using h)
  · rw [run_go hne]
    have : w.tok.all (nvR w.preceding w.following) = true := by
      rw [nvW] at hs
      split at hs
      · rename_i r ht
        exact absurd rfl (hne [] r (by rw [ht]; simp))
      · exact hs
    exact go_nv this (by simpa using h)

/-! ## Tamil: consonants before vowels first -/

/-- A rule for consonants before a vowel. -/
def vocW (w : Rw) : Bool :=
  (match w.preceding with | .nul => true | _ => false) && (match w.following with | .vowel => true | _ => false) &&
  w.tok.all fun p => !p.1.isEmpty && !p.2.isEmpty &&
    (p.1.all fun a => match a with | .g _ => true | _ => false) &&
    (p.2.all fun a => match a with | .t _ => true | _ => false)

/-- None of the texts stands before a vowel. -/
def Done (L : List (List Tok)) (ts : List Tok) : Prop :=
  ∀ l ∈ L, ∀ c, isG Ltn.ASCII_VOWEL c = true → ∀ u v, ts ≠ u ++ (l ++ c :: v)

theorem go_done {rs : List (List Tok × List Tok)}
    (hrs : ∀ p ∈ rs, p.1 ≠ [] ∧ p.2 ≠ [] ∧ (∀ a ∈ p.1, ∃ s, a = .g s) ∧ ∀ a ∈ p.2, ∃ s, a = .t s)
    {n : Nat} {rev rest : List Tok} (hn : rest.length ≤ n)
    (h : ∀ p ∈ rs, ∀ c, isG Ltn.ASCII_VOWEL c = true → ∀ u v, rev.reverse ++ rest = u ++ (p.1 ++ c :: v) →
      rev.length ≤ u.length) : Done (rs.map Prod.fst) (go rs .nul .vowel n rev rest) := by
  induction n generalizing rev rest with
  | zero =>
    cases rest with
    | nil =>
      intro l hl c hc u v he
      obtain ⟨p, hp, rfl⟩ := List.mem_map.1 hl
      have := h p hp c hc u v (by simpa [go] using he)
      have h2 := congrArg List.length he
      simp [go] at h2
      omega
    | cons a rest => simp at hn
  | succ n ih =>
    cases rest with
    | nil =>
      intro l hl c hc u v he
      obtain ⟨p, hp, rfl⟩ := List.mem_map.1 hl
      have := h p hp c hc u v (by simpa [go] using he)
      have h2 := congrArg List.length he
      simp [go] at h2
      omega
    | cons a rest =>
      have hn' : rest.length ≤ n := by simpa using hn
      rw [go]
      cases hp : pick .nul .vowel rev (a :: rest) rs with
      | none =>
        simp only
        refine ih hn' (fun p hpm c hc u v he => ?_)
        have he' : rev.reverse ++ a :: rest = u ++ (p.1 ++ c :: v) := by simpa using he
        have h1 := h p hpm c hc u v he'
        rcases Nat.lt_or_ge rev.length u.length with h2 | h2
        · exact h2
        · exfalso
          have h3 : rev.reverse.length = u.length := by rw [List.length_reverse]; omega
          have h4 := (List.append_inj he' h3).2
          exact pick_none hp (l := p.1) (r := p.2) hpm (rest' := c :: v) h4 rfl hc
      | some q =>
        obtain ⟨rest', r⟩ := q
        obtain ⟨l, hm, he, _, _⟩ := pick_some hp
        obtain ⟨h1, h2, h3, h4⟩ := hrs _ hm
        simp only at h1 h2 h3 h4 ⊢
        refine ih ?_ (fun p hpm c hc u v hu => ?_)
        · have h5 := congrArg List.length he
          have h6 : 0 < l.length := List.length_pos_iff.2 h1
          simp at h5
          omega
        · rw [List.reverse_append, List.reverse_reverse, List.append_assoc] at hu
          obtain ⟨g1, g2, g3, g4⟩ := hrs _ hpm
          have hcg : ∀ a ∈ p.1 ++ [c], ∃ s, a = .g s := by
            intro a ha
            rcases List.mem_append.1 ha with ha | ha
            · exact g3 a ha
            · rw [List.mem_singleton.1 ha]
              obtain ⟨d, _, rfl⟩ := isG_iff.1 hc
              exact ⟨_, rfl⟩
          have hu' : rev.reverse ++ (r ++ rest') = u ++ ((p.1 ++ [c]) ++ v) := by simpa using hu
          rw [List.length_append, List.length_reverse]
          apply Classical.byContradiction
          intro hlt
          rcases List.append_eq_append_iff.1 hu' with ⟨z, h5, h6⟩ | ⟨z, h5, h6⟩
          · -- starts in what was written or after it
            have hz : z.length < r.length := by
              have := congrArg List.length h5
              simp at this
              omega
            rcases List.append_eq_append_iff.1 h6 with ⟨y, h7, h8⟩ | ⟨y, h7, h8⟩
            · have := congrArg List.length h7
              simp at this
              omega
            · cases y with
              | nil =>
                have := congrArg List.length h7
                simp at this
                omega
              | cons d y =>
                have hd : d ∈ r := by rw [h7]; simp
                obtain ⟨s, rfl⟩ := h4 d hd
                cases hpc : p.1 ++ [c] with
                | nil => simp at hpc
                | cons e k =>
                  rw [hpc, List.cons_append, List.cons_append] at h8
                  injection h8 with h8 _
                  obtain ⟨s', h9⟩ := hcg e (by rw [hpc]; simp)
                  rw [h9] at h8
                  cases h8
          · -- starts before it
            rcases List.append_eq_append_iff.1 h6 with ⟨y, h7, h8⟩ | ⟨y, h7, h8⟩
            · -- all before
              have := h p hpm c hc u (y ++ a :: rest) (by rw [h5, h7]; simp)
              have h9 := congrArg List.length h5
              have h10 := congrArg List.length h7
              simp at h9 h10
              omega
            · cases y with
              | nil =>
                have := h p hpm c hc u (a :: rest) (by
                  rw [h5, List.append_assoc]
                  rw [List.append_nil] at h7
                  rw [← h7]
                  simp)
                have h9 := congrArg List.length h5
                rw [List.append_nil] at h7
                have h10 := congrArg List.length h7
                simp at h9 h10
                omega
              | cons d y =>
                cases r with
                | nil => exact h2 rfl
                | cons e r =>
                  rw [List.cons_append, List.cons_append] at h8
                  injection h8 with h8 _
                  obtain ⟨s, rfl⟩ := h4 e (by simp)
                  obtain ⟨s', h9⟩ := hcg d (by rw [h7]; simp)
                  rw [h9] at h8
                  cases h8

theorem run_done {w : Rw} (hv : vocW w = true) (ts : List Tok) :
    Done (w.tok.map Prod.fst) (w.run ts) := by
  rw [vocW, Bool.and_eq_true, Bool.and_eq_true] at hv
  have hP : w.preceding = .nul := by
    have := hv.1.1
    cases hp : w.preceding <;> rw [hp] at this <;> first | rfl | cases this
  have hF : w.following = .vowel := by
    have := hv.1.2
    cases hp : w.following <;> rw [hp] at this <;> first | rfl | cases this
  have hrs : ∀ p ∈ w.tok, p.1 ≠ [] ∧ p.2 ≠ [] ∧ (∀ a ∈ p.1, ∃ s, a = .g s) ∧ ∀ a ∈ p.2, ∃ s, a = .t s := by
    intro p hp
    have := List.all_eq_true.1 hv.2 p hp
    simp only [Bool.and_eq_true, Bool.not_eq_true', ← Bool.not_eq_true, List.isEmpty_iff] at this
    refine ⟨this.1.1.1, this.1.1.2, fun a ha => ?_, fun a ha => ?_⟩
    · have := List.all_eq_true.1 this.1.2 a ha
      cases a <;> first | exact ⟨_, rfl⟩ | cases this
    · have := List.all_eq_true.1 this.2 a ha
      cases a <;> first | exact ⟨_, rfl⟩ | cases this
  rw [run_go (fun l r hm => (hrs _ hm).1), hP, hF]
  exact go_done hrs (Nat.le_refl _) (fun p hp c hc u v he => by simp)

/-- The rule for the other consonants. -/
def pairW (S : List Tok) (v w : Rw) : Bool :=
  vocW v && (S.all fun a => !isInd a) && w.tok.all fun p =>
    ((v.tok.map Prod.fst).any fun l => (l.length == p.1.length) && (l.zip p.1).all fun q => teq q.1 q.2) &&
    match p.2 with
    | b :: r => nvF (b :: r) && !isV b
    | _ => false

theorem zip_eq {l m : List Tok} (h : l.length = m.length) (h2 : ((l.zip m).all fun q => teq q.1 q.2) = true) :
    l = m := by
  induction l generalizing m with
  | nil => cases m with
    | nil => rfl
    | cons _ _ => simp at h
  | cons a l ih => cases m with
    | nil => simp at h
    | cons b m =>
      rw [List.zip_cons_cons, List.all_cons, Bool.and_eq_true] at h2
      have e : a = b := teq_iff.1 h2.1
      rw [e, ih (by simpa using h) h2.2]

theorem go_pairNv {rs : List (List Tok × List Tok)} {P F : Con} {L : List (List Tok)}
    (hrs : ∀ p ∈ rs, p.1 ∈ L ∧ ∃ b r, p.2 = b :: r ∧ NV (b :: r) ∧ isV b = false)
    {n : Nat} {rev rest : List Tok} (hi : ∀ a ∈ rest, isInd a = false) (hd : Done L rest)
    (h : NV (rev.reverse ++ rest)) : NV (go rs P F n rev rest) := by
  induction n generalizing rev rest with
  | zero =>
    cases rest with
    | nil => simpa [go] using h
    | cons a rest => exact h
  | succ n ih =>
    cases rest with
    | nil => simpa [go] using h
    | cons c rest =>
      rw [go]
      cases hp : pick P F rev (c :: rest) rs with
      | none =>
        refine ih (fun a ha => hi a (by simp [ha])) (fun l hl d hd' u v he => ?_) (by simpa using h)
        exact hd l hl d hd' (c :: u) v (by rw [he]; rfl)
      | some q =>
        obtain ⟨rest', r⟩ := q
        obtain ⟨l, hm, he, hl, hr⟩ := pick_some hp
        obtain ⟨hL, b, r', hb, h1, h2⟩ := hrs _ hm
        simp only at hb hL
        subst hb
        simp only
        refine ih (fun a ha => hi a (by rw [he]; simp [ha])) (fun k hk d hd' u v he' => ?_) ?_
        · exact hd k hk d hd' (l ++ u) v (by rw [he, he']; simp)
        · rw [List.reverse_append, List.reverse_reverse, List.append_assoc]
          rw [he] at h
          refine h.mid h1 (fun hb => by rw [h2] at hb; cases hb) (fun u e hu he' d v hd' => ?_)
          have h3 : isInd d = false := hi d (by rw [he, hd']; simp)
          cases h4 : isG Ltn.ASCII_VOWEL d
          · rw [isV, h3, h4]; rfl
          · exact absurd (by rw [he, hd']; rfl) (hd l hL d h4 [] v)

theorem run_pairNv {S : List Tok} {v w : Rw} (hp : pairW S v w = true) {ts : List Tok}
    (hS : ∀ a ∈ ts, a ∈ S) (hd : Done (v.tok.map Prod.fst) ts) (h : NV ts) : NV (w.run ts) := by
  rw [pairW, Bool.and_eq_true, Bool.and_eq_true] at hp
  have hrs : ∀ p ∈ w.tok, p.1 ∈ v.tok.map Prod.fst ∧ ∃ b r, p.2 = b :: r ∧ NV (b :: r) ∧ isV b = false := by
    intro p hpm
    have := List.all_eq_true.1 hp.2 p hpm
    rw [Bool.and_eq_true, List.any_eq_true] at this
    obtain ⟨⟨l, hl, h1⟩, h2⟩ := this
    rw [Bool.and_eq_true, beq_iff_eq] at h1
    refine ⟨(zip_eq h1.1 h1.2) ▸ hl, ?_⟩
    split at h2
    · rename_i b r hb
      rw [Bool.and_eq_true, Bool.not_eq_true'] at h2
      exact ⟨b, r, hb, nvF_ok h2.1, h2.2⟩
    · cases h2
  have hne : ∀ l r, (l, r) ∈ w.tok → l ≠ [] := by
    intro l r hm hl
    subst hl
    obtain ⟨p, hpm, h1⟩ := List.mem_map.1 (hrs _ hm).1
    have := hp.1.1
    rw [vocW, Bool.and_eq_true] at this
    have := List.all_eq_true.1 this.2 p hpm
    simp only at h1
    rw [h1] at this
    simp at this
  rw [run_go hne]
  refine go_pairNv hrs (fun a ha => ?_) hd (by simpa using h)
  simpa using List.all_eq_true.1 hp.1.2 a (hS a ha)

/-- The condition of a list of rules, after a rule and with given symbols. -/
def nvs : Option Rw → List Tok → List Rw → Bool
  | _, _, [] => true
  | p, S, w :: ws => (nvW w || match p with
    | some v => pairW S v w
    | none => false) && nvs (some w) (alpha w S) ws

theorem runs_nv {ws : List Rw} (hok : ws.all Rw.ok = true) {p : Option Rw} {S : List Tok}
    (hs : nvs p S ws = true) {ts : List Tok} (hS : ∀ a ∈ ts, a ∈ S)
    (hp : ∀ v, p = some v → vocW v = true → Done (v.tok.map Prod.fst) ts) (h : NV ts) : NV (runs ws ts) := by
  induction ws generalizing ts p S with
  | nil => exact h
  | cons w ws ih =>
    rw [List.all_cons, Bool.and_eq_true] at hok
    rw [nvs.eq_def] at hs
    simp only [Bool.and_eq_true, Bool.or_eq_true] at hs
    refine ih hok.2 hs.2 (run_alpha hok.1 hS) ?_ ?_
    · intro v hv hvoc
      injection hv with hv
      subst hv
      exact run_done hvoc ts
    · rcases hs.1 with h1 | h1
      · exact run_nv hok.1 h1 h
      · cases p with
        | none => cases h1
        | some v =>
          have : vocW v = true := by
            have h2 := show pairW S v w = true from h1
            rw [pairW, Bool.and_eq_true, Bool.and_eq_true] at h2
            exact h2.1.1
          exact run_pairNv h1 hS (hp v rfl this) h

section
set_option maxRecDepth 100000
theorem nvs_ok : ([hi, ta].all fun P => nvs none LC (typOps P)) = true := by decide +kernel
theorem lc_va : LC.all (fun a => !isVA a) = true := by decide +kernel
end

/-- No vowel is directly after a virama or an anusvara. -/
theorem typ_nv {P : Params} (hP : P = hi ∨ P = ta) {x : Str} (hx : lower x) :
    NV (runs (typOps P) (lat x)) := by
  have h1 := (typOps_ok hP).1
  have h2 : nvs none LC (typOps P) = true := List.all_eq_true.1 nvs_ok P (by
    rcases hP with h | h
    · exact h ▸ List.mem_cons_self
    · exact h ▸ List.mem_cons_of_mem _ List.mem_cons_self)
  generalize typOps P = ws at *
  refine runs_nv h1 h2 (lat_mem hx) (fun v hv => nomatch hv) ?_
  rintro a b ha hb ⟨u, v, h⟩
  have := List.all_eq_true.1 lc_va a (lat_mem hx a (by rw [h]; simp))
  rw [ha] at this
  cases this

end Derom
end Nisaba.NT
