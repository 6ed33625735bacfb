import Verif.Lemmas.DeromShape
/-!
# The anusvara in Hindi and the letter ṟ in Tamil
-/
namespace Nisaba.NT
namespace Derom

/-! ## Numbers of symbols -/

/-- The number of occurrences of a symbol. -/
def cnt (a : Tok) (ts : List Tok) : Nat := (ts.filter (teq a)).length

theorem cnt_append (a : Tok) (xs ys : List Tok) : cnt a (xs ++ ys) = cnt a xs + cnt a ys := by
  rw [cnt, List.filter_append, List.length_append]; rfl
theorem cnt_cons (a b : Tok) (xs : List Tok) : cnt a (b :: xs) = cnt a [b] + cnt a xs :=
  cnt_append a [b] xs
theorem cnt_reverse (a : Tok) (xs : List Tok) : cnt a xs.reverse = cnt a xs := by
  rw [cnt, List.filter_reverse, List.length_reverse]; rfl
theorem cnt_zero {a : Tok} {xs : List Tok} (h : tmem xs a = false) : cnt a xs = 0 := by
  rw [cnt, List.length_eq_zero_iff, List.filter_eq_nil_iff]
  intro b hb hc
  have : a ∈ xs := by rw [teq_iff.1 hc]; exact hb
  rw [tmem_iff.2 this] at h
  cases h

theorem go_cnt {a : Tok} {rs : List (List Tok × List Tok)} {P F : Con}
    (hrs : ∀ p ∈ rs, cnt a p.1 = cnt a p.2) {n : Nat} {rev rest : List Tok} :
    cnt a (go rs P F n rev rest) = cnt a rev + cnt a rest := by
  induction n generalizing rev rest with
  | zero => cases rest <;> simp [go, cnt_append, cnt_reverse] <;> rfl
  | succ n ih =>
    cases rest with
    | nil => simp [go, cnt_reverse]; rfl
    | cons b rest =>
      rw [go]
      cases hp : pick P F rev (b :: rest) rs with
      | none =>
        simp only
        rw [ih, ← List.singleton_append, cnt_append, ← List.singleton_append (l := rest), cnt_append]
        omega
      | some q =>
        obtain ⟨rest', r⟩ := q
        obtain ⟨l, hm, he, _, _⟩ := pick_some hp
        have := hrs _ hm
        simp only at this ⊢
        rw [ih, he, cnt_append, cnt_append, cnt_reverse]
        omega

theorem goIns_cnt {a : Tok} {r : List Tok} {P F : Con} (hr : cnt a r = 0) {rev rest : List Tok} :
    cnt a (goIns r P F rev rest) = cnt a rev + cnt a rest := by
  induction rest generalizing rev with
  | nil =>
    rw [goIns, cond_eq_ite]
    split <;> simp [cnt_reverse, cnt_append, hr] <;> rfl
  | cons b rest ih =>
    rw [goIns, cond_eq_ite]
    split
    · rw [ih, ← List.singleton_append, cnt_append, cnt_append, cnt_reverse, hr,
        ← List.singleton_append (l := rest), cnt_append]
      omega
    · rw [ih, ← List.singleton_append, cnt_append, ← List.singleton_append (l := rest), cnt_append]
      omega

theorem run_cnt {a : Tok} {w : Rw} (hok : w.ok = true)
    (h : (w.tok.all fun p => !tmem p.1 a && !tmem p.2 a) = true) (ts : List Tok) :
    cnt a (w.run ts) = cnt a ts := by
  have h0 : ∀ p ∈ w.tok, cnt a p.1 = 0 ∧ cnt a p.2 = 0 := by
    intro p hp
    have := List.all_eq_true.1 h p hp
    simp only [Bool.and_eq_true, Bool.not_eq_true'] at this
    exact ⟨cnt_zero this.1, cnt_zero this.2⟩
  rcases tok_ne hok with ⟨r, ht⟩ | hne
  · rw [run_ins ht, goIns_cnt (h0 ([], r) (by rw [ht]; simp)).2]
    simp [cnt]
  · rw [run_go hne, go_cnt (fun p hp => by rw [(h0 p hp).1, (h0 p hp).2])]
    simp [cnt]

theorem runs_cnt {a : Tok} {ws : List Rw} (hok : ws.all Rw.ok = true)
    (h : (ws.all fun w => w.tok.all fun p => !tmem p.1 a && !tmem p.2 a) = true) (ts : List Tok) :
    cnt a (runs ws ts) = cnt a ts := by
  induction ws generalizing ts with
  | nil => rfl
  | cons w ws ih =>
    rw [List.all_cons, Bool.and_eq_true] at hok h
    rw [show runs (w :: ws) ts = runs ws (w.run ts) from rfl, ih hok.2 h.2, run_cnt hok.1 h.1]

/-! ## The two rules of the anusvara -/

/-- Vowels. -/
def vowB (c : Nat) : Bool := isG Ltn.ASCII_VOWEL (.g [c])
/-- Consonants except for `n` and `m`. -/
def conB (c : Nat) : Bool := rCtx .consNm [.g [c]]

/-- A rule with one symbol on both sides. -/
def go1 (a b : Tok) (P F : Con) : List Tok → List Tok → List Tok
  | rev, [] => rev.reverse
  | rev, c :: rest => bif teq a c && (lCtx P rev && rCtx F rest) then go1 a b P F (b :: rev) rest
    else go1 a b P F (c :: rev) rest

theorem go_go1 {a b : Tok} {P F : Con} {n : Nat} {rev rest : List Tok} (hn : rest.length ≤ n) :
    go [([a], [b])] P F n rev rest = go1 a b P F rev rest := by
  induction rest generalizing n rev with
  | nil => cases n <;> rfl
  | cons c rest ih =>
    cases n with
    | zero => simp at hn
    | succ n =>
      have hn' : rest.length ≤ n := by simpa using hn
      rw [go, go1, pick, tdrop]
      cases h1 : teq a c
      · simp only [cond_false, pick, Bool.false_and]
        exact ih hn'
      · simp only [cond_true, tdrop, pick, Bool.true_and]
        cases h2 : (lCtx P rev && rCtx F rest)
        · simp only [cond_false]; exact ih hn'
        · simp only [cond_true]; exact ih hn'

/-- The first letter of a text is `b` or `p`. -/
def bpB : Str → Bool
  | c :: _ => Nat.beq 98 c || Nat.beq 112 c
  | [] => false
/-- The text is empty or its first letter is a consonant except for `n` and `m`. -/
def conS : Str → Bool
  | c :: _ => conB c
  | [] => true

/-- The two steps on letters. -/
def st1 : Bool → Str → List Tok
  | _, [] => []
  | v, c :: x => (bif Nat.beq c 109 && (v && bpB x) then Tok.t a!"ans" else .g [c]) :: st1 (vowB c) x
def st2 : Bool → Str → List Tok
  | _, [] => []
  | v, c :: x => (bif (Nat.beq c 109 && (v && bpB x)) || (Nat.beq c 110 && (v && conS x)) then Tok.t a!"ans"
      else .g [c]) :: st2 (vowB c) x

/-- The last symbol is a vowel. -/
def lv : List Tok → Bool
  | a :: _ => isG Ltn.ASCII_VOWEL a
  | [] => false

theorem lCtx_lv (rev : List Tok) : lCtx .vowel rev = lv rev := by cases rev <;> rfl

theorem teq_g1 (c d : Nat) : teq (.g [c]) (.g [d]) = Nat.beq d c := by
  rw [Bool.eq_iff_iff, teq_iff, Nat.beq_eq]
  constructor
  · intro h; injection h with h; injection h with h; exact h.symm
  · intro h; rw [h]

theorem rCtx_bp (x : Str) : rCtx .bp (lat x) = bpB x := by
  cases x with
  | nil => rfl
  | cons c x =>
    change (teq (.g [c]) (.g a!"b") || teq (.g [c]) (.g a!"p")) = _
    rw [teq_g1, teq_g1, bpB]

section
set_option maxRecDepth 100000
theorem facts : (vowB 109 || vowB 110 || conB 109) = false ∧ isG Ltn.ASCII_VOWEL (.t a!"ans") = false := by
  decide +kernel
end

theorem go_st1 (x : Str) (rev : List Tok) :
    go1 (.g a!"m") (.t a!"ans") .vowel .bp rev (lat x) = rev.reverse ++ st1 (lv rev) x := by
  induction x generalizing rev with
  | nil => simp [lat, go1, st1]
  | cons c x ih =>
    rw [show lat (c :: x) = .g [c] :: lat x from rfl, go1, teq_g1, lCtx_lv, rCtx_bp, st1]
    cases h : (Nat.beq c 109 && (lv rev && bpB x))
    · simp only [cond_false]
      rw [ih]
      simp [lv, vowB]
    · simp only [cond_true]
      rw [ih]
      have hc : c = 109 := by
        rw [Bool.and_eq_true] at h
        exact Nat.eq_of_beq_eq_true h.1
      have : vowB c = false := by
        have := facts.1
        simp only [Bool.or_eq_false_iff] at this
        rw [hc]; exact this.1.1
      rw [show lv (Tok.t a!"ans" :: rev) = vowB c by rw [this]; exact facts.2]
      simp

theorem rCtx_con (x : Str) (v : Bool) : rCtx .consNm (st1 v x) = conS x := by

  cases x with
  | nil => rfl
  | cons c x =>
    rw [st1, conS, conB]
    cases h : (Nat.beq c 109 && (v && bpB x))
    · simp only [cond_false]
      rfl
    · simp only [cond_true]
      have hc : c = 109 := by
        rw [Bool.and_eq_true] at h
        exact Nat.eq_of_beq_eq_true h.1
      have := facts.1
      simp only [Bool.or_eq_false_iff] at this
      rw [show rCtx .consNm [.g [c]] = conB c from rfl, hc, this.2]
      rfl

theorem go_st2 (x : Str) (v : Bool) (rev : List Tok) (hv : lv rev = v) :
    go1 (.g a!"n") (.t a!"ans") .vowel .consNm rev (st1 v x) = rev.reverse ++ st2 v x := by
  induction x generalizing rev v with
  | nil => simp [go1, st1, st2]
  | cons c x ih =>
    rw [st1, go1, lCtx_lv, rCtx_con x _, hv, st2]
    have hf := facts.1
    simp only [Bool.or_eq_false_iff] at hf
    cases h : (Nat.beq c 109 && (v && bpB x))
    · simp only [cond_false, Bool.false_or]
      rw [teq_g1]
      cases h2 : (Nat.beq c 110 && (v && conS x))
      · simp only [cond_false]
        rw [ih (vowB c) (.g [c] :: rev) rfl]
        simp
      · simp only [cond_true]
        have hc : c = 110 := by
          rw [Bool.and_eq_true] at h2
          exact Nat.eq_of_beq_eq_true h2.1
        rw [ih (vowB c) (.t a!"ans" :: rev) (by rw [hc, hf.1.2]; exact facts.2)]
        simp
    · simp only [cond_true, Bool.true_or]
      have hc : c = 109 := by
        rw [Bool.and_eq_true] at h
        exact Nat.eq_of_beq_eq_true h.1
      rw [show teq (.g a!"n") (.t a!"ans") = false from rfl]
      simp only [Bool.false_and, cond_false]
      rw [ih (vowB c) (.t a!"ans" :: rev) (by rw [hc, hf.1.1]; exact facts.2)]
      simp

section
set_option maxRecDepth 100000
theorem hi_anus : (typOps hi).take 2 = rwNasalLabial ++ rwAnsN := by decide +kernel
theorem hi_rest : (((typOps hi).drop 2 ++ typ2iso hi).all fun w =>
    w.tok.all fun p => !tmem p.1 (.t a!"ans") && !tmem p.2 (.t a!"ans")) = true := by decide +kernel
theorem anus_tok : ((rwNasalLabial ++ rwAnsN).map Rw.tok) =
    [[([.g a!"m"], [.t a!"ans"])], [([.g a!"n"], [.t a!"ans"])]] := by decide +kernel
theorem ans_letters : ((alphas (typOps hi) LC).all fun a =>
    bif isAns a then seq (brT true a) [0x902] else !(brT true a).any (Nat.beq 0x902)) = true := by
  decide +kernel
theorem ans_glyphs : ((alphas (typOps hi ++ typ2iso hi) LC).all fun a =>
    bif isAns a then seq (glT a) a!"ṁ" else !(glT a).any (Nat.beq 0x1e41)) = true := by
  decide +kernel
end

/-- The number of places where an anusvara is written. -/
def nas : Bool → Str → Nat
  | _, [] => 0
  | v, c :: x => (bif (Nat.beq c 109 && (v && bpB x)) || (Nat.beq c 110 && (v && conS x)) then 1 else 0) +
    nas (vowB c) x

theorem cnt_st2 (v : Bool) (x : Str) : cnt (.t a!"ans") (st2 v x) = nas v x := by
  induction x generalizing v with
  | nil => rfl
  | cons c x ih =>
    rw [st2, nas, cnt_cons, ih]
    cases ((Nat.beq c 109 && (v && bpB x)) || (Nat.beq c 110 && (v && conS x))) <;> rfl

theorem run_go1 {w : Rw} {a b : Tok} (h : w.tok = [([a], [b])]) (ts : List Tok) :
    w.run ts = go1 a b w.preceding w.following [] ts := by
  rw [run_go (by rw [h]; simp), h, go_go1 (Nat.le_refl _)]

theorem runs_anus (x : Str) : runs (rwNasalLabial ++ rwAnsN) (lat x) = st2 false x := by
  have h := anus_tok
  simp only [rwNasalLabial, rwAnsN, List.cons_append, List.nil_append, List.map_cons, List.map_nil,
    List.cons.injEq, and_true] at h
  change (rw1 (ltn a!"N") (iso a!"ANS") .vowel .consNm).run
    ((rw1 (ltn a!"M") (iso a!"ANS") .vowel .bp).run (lat x)) = _
  rw [run_go1 h.1, run_go1 h.2]
  change go1 _ _ .vowel .consNm [] (go1 _ _ .vowel .bp [] (lat x)) = _
  rw [go_st1, List.reverse_nil, List.nil_append, go_st2 _ _ _ rfl]
  rfl

theorem count_text {f : Tok → Str} {k : Nat} {ts : List Tok} (h : ∀ a ∈ ts,
    (bif isAns a then seq (f a) [k] else !(f a).any (Nat.beq k)) = true) :
    (ts.flatMap f).count k = cnt (.t a!"ans") ts := by
  induction ts with
  | nil => rfl
  | cons a ts ih =>
    rw [List.flatMap_cons, List.count_append, ih fun b hb => h b (by simp [hb]), ← List.singleton_append (l := ts),
      cnt_append]
    congr 1
    have ha := h a (by simp)
    cases hn : isAns a
    · rw [hn, cond_false, Bool.not_eq_true'] at ha
      have h1 : (f a).count k = 0 := by
        rw [List.count_eq_zero]
        intro hc
        rw [← Bool.not_eq_true, List.any_eq_true] at ha
        exact ha ⟨k, hc, Nat.beq_refl k⟩
      rw [h1, cnt_zero]
      rw [← Bool.not_eq_true, tmem_iff, List.mem_singleton]
      intro h2
      rw [← h2, isAns, teq_iff.2 rfl] at hn
      cases hn
    · rw [hn, cond_true, seq_eq] at ha
      rw [ha, teq_iff.1 hn]
      simp [cnt, teq, seq]

theorem anus_split {ws : List Rw} (hok : ws.all Rw.ok = true) {x : Str}
    (h : ws.take 2 = rwNasalLabial ++ rwAnsN)
    (hr : ((ws.drop 2).all fun w =>
      w.tok.all fun p => !tmem p.1 (.t a!"ans") && !tmem p.2 (.t a!"ans")) = true) :
    cnt (.t a!"ans") (runs ws (lat x)) = nas false x := by
  rw [← List.take_append_drop 2 ws, List.all_append, Bool.and_eq_true] at hok
  rw [← List.take_append_drop 2 ws, runs_append, h, runs_anus, runs_cnt hok.2 hr, cnt_st2]

theorem hi_count {x : Str} (hx : lower x) : (brhOf hi x).count 0x902 = nas false x := by
  have hok := (typOps_ok (P := hi) (.inl rfl)).1
  have h1 := hi_rest
  rw [List.all_append, Bool.and_eq_true] at h1
  have h2 := anus_split hok hi_anus h1.1 (x := x)
  rw [brhOf, ← h2]
  exact count_text fun a ha => List.all_eq_true.1 ans_letters a (runs_alpha hok (lat_mem hx) a ha)

theorem hi_count_iso {x : Str} (hx : lower x) : (isoOf hi x).count 0x1e41 = nas false x := by
  have hok := hi_ok
  have h1 := hi_rest
  have h3 := hi_anus
  have h4 := ans_glyphs
  rw [isoOf_eq]
  have h5 : (typOps hi ++ typ2iso hi).take 2 = rwNasalLabial ++ rwAnsN ∧
      (typOps hi ++ typ2iso hi).drop 2 = (typOps hi).drop 2 ++ typ2iso hi := by
    have hlen : 2 ≤ (typOps hi).length := by
      have := congrArg List.length h3
      rw [List.length_take] at this
      have h6 : (rwNasalLabial ++ rwAnsN).length = 2 := rfl
      omega
    rw [List.take_append_of_le_length hlen, List.drop_append_of_le_length hlen]
    exact ⟨h3, rfl⟩
  rw [← h5.2] at h1
  generalize typOps hi ++ typ2iso hi = ws at *
  have h2 := anus_split hok h5.1 h1 (x := x)
  rw [← h2]
  exact count_text fun a ha => List.all_eq_true.1 h4 a (runs_alpha hok (lat_mem hx) a ha)

end Derom
end Nisaba.NT
