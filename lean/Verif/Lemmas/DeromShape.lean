import Verif.Lemmas.DeromText
/-!
# Order of letters in deromanized texts
-/
namespace Nisaba.NT
namespace Derom

/-- Letters that may carry a sign. -/
def isSch (a : Tok) : Bool := isT Brh.SCHWA_BEARING a
/-- Vowel signs and the virama. -/
def isSign (a : Tok) : Bool := isT Brh.VOWEL_SIGN a || teq a (.t a!"vir")
/-- The anusvara. -/
def isAns (a : Tok) : Bool := teq a (.t a!"ans")
/-- Vowels. -/
def isVow (a : Tok) : Bool := isG Ltn.ASCII_VOWEL a || (isT Brh.VOWEL_SIGN a || isT Brh.INDEPENDENT_VOWEL a)

/-- What may precede a symbol. -/
def adj : Option Tok → Tok → Bool
  | none, b => !(isSign b || isAns b)
  | some a, b => (bif isSign b then isSch a else true) && (bif isAns b then isVow a else true)

def wfF : Option Tok → List Tok → Bool
  | _, [] => true
  | p, a :: ts => adj p a && wfF (some a) ts

def lastO (p : Option Tok) : List Tok → Option Tok
  | [] => p
  | a :: ts => lastO (some a) ts

theorem wfF_append (p : Option Tok) (xs ys : List Tok) :
    wfF p (xs ++ ys) = (wfF p xs && wfF (lastO p xs) ys) := by
  induction xs generalizing p with
  | nil => rfl
  | cons a xs ih => rw [List.cons_append, wfF, wfF, lastO, ih, Bool.and_assoc]

theorem lastO_append (p : Option Tok) (xs ys : List Tok) : lastO p (xs ++ ys) = lastO (lastO p xs) ys := by
  induction xs generalizing p with
  | nil => rfl
  | cons a xs ih => rw [List.cons_append, lastO, lastO, ih]

theorem lastO_reverse (a : Tok) (rev : List Tok) (p : Option Tok) :
    lastO p (a :: rev).reverse = some a := by
  rw [List.reverse_cons, lastO_append]; rfl

theorem lastO_ne {p q : Option Tok} {ts : List Tok} (h : ts ≠ []) : lastO p ts = lastO q ts := by
  cases ts with
  | nil => exact absurd rfl h
  | cons a ts => rfl

def conSch : Con → Bool | .schCons => true | _ => false
def conVow : Con → Bool | .vowel => true | _ => false
def conEow : Con → Bool | .eow => true | _ => false

theorem conSch_iff {P : Con} (h : conSch P = true) : P = .schCons := by cases P <;> first | rfl | cases h
theorem conVow_iff {P : Con} (h : conVow P = true) : P = .vowel := by cases P <;> first | rfl | cases h
theorem conEow_iff {P : Con} (h : conEow P = true) : P = .eow := by cases P <;> first | rfl | cases h

/-- The condition of a pair of a rule. -/
def shapeR (P F : Con) (p : List Tok × List Tok) : Bool := match p.1, p.2 with
  | a :: l, b :: r =>
    (bif isSign b then isSign a || conSch P else true) &&
    (bif isAns b then isAns a || conVow P else true) &&
    wfF (some b) r &&
    (conEow F ||
      match lastO none (a :: l), lastO none (b :: r) with
      | some e, some f => (!isSch e || isSch f) && (!isVow e || isVow f)
      | _, _ => false)
  | _, _ => false

/-- The condition of a rule. -/
def shapeW (w : Rw) : Bool := match w.tok with
  | [([], r)] => (match r with | [.t s] => seq s a!"vir" | _ => false) &&
    (match w.following with | .onset => true | .onsetEow => true | _ => false)
  | rs => rs.all (shapeR w.preceding w.following)

section
set_option maxRecDepth 100000
theorem onset_ok : (Brh.ONSET_CONSONANT.all fun c => !isSign (.t c.typ) && !isAns (.t c.typ)) = true := by
  decide +kernel
theorem shape_ok : ([hi, ta].all fun P => (typOps P).all shapeW) = true := by decide +kernel
theorem lc_shape : LC.all (fun a => !isSign a && !isAns a) = true := by decide +kernel
end

theorem lCtx_sch {rev : List Tok} (h : lCtx .schCons rev = true) : ∃ a r, rev = a :: r ∧ isSch a = true := by
  cases rev with
  | nil => cases h
  | cons a r => exact ⟨a, r, rfl, h⟩
theorem lCtx_bow {rev : List Tok} (h : lCtx .bowSch rev = true) : ∃ a r, rev = a :: r ∧ isSch a = true := by
  match rev, h with
  | [a], h => exact ⟨a, [], rfl, h⟩
theorem lCtx_vow {rev : List Tok} (h : lCtx .vowel rev = true) : ∃ a r, rev = a :: r ∧ isVow a = true := by
  cases rev with
  | nil => cases h
  | cons a r => exact ⟨a, r, rfl, by rw [isVow, show isG Ltn.ASCII_VOWEL a = true from h]; rfl⟩

/-- What follows a symbol may follow another. -/
theorem adj_mono {a b c : Tok} (h1 : (!isSch a || isSch b) = true) (h2 : (!isVow a || isVow b) = true)
    (h : adj (some a) c = true) : adj (some b) c = true := by
  rw [adj] at h ⊢
  revert h h1 h2
  generalize isSign c = s
  generalize isAns c = n
  cases s <;> cases n <;> cases isSch a <;> cases isVow a <;> simp <;> tauto

theorem wfF_mono {a b : Tok} {ts : List Tok} (h1 : (!isSch a || isSch b) = true)
    (h2 : (!isVow a || isVow b) = true) (h : wfF (some a) ts = true) : wfF (some b) ts = true := by
  cases ts with
  | nil => rfl
  | cons c ts =>
    rw [wfF, Bool.and_eq_true] at h ⊢
    exact ⟨adj_mono h1 h2 h.1, h.2⟩

theorem adj_swap {p : Option Tok} {a b : Tok} (h : adj p a = true)
    (h1 : isSign b = true → isSign a = true ∨ ∃ e, p = some e ∧ isSch e = true)
    (h2 : isAns b = true → isAns a = true ∨ ∃ e, p = some e ∧ isVow e = true) : adj p b = true := by
  cases p with
  | none =>
    rw [adj, Bool.not_eq_true', Bool.or_eq_false_iff] at h ⊢
    constructor
    · cases hb : isSign b
      · rfl
      · rcases h1 hb with h3 | ⟨e, h3, _⟩
        · rw [h.1] at h3; cases h3
        · cases h3
    · cases hb : isAns b
      · rfl
      · rcases h2 hb with h3 | ⟨e, h3, _⟩
        · rw [h.2] at h3; cases h3
        · cases h3
  | some d =>
    rw [adj, Bool.and_eq_true] at h ⊢
    constructor
    · cases hb : isSign b
      · rfl
      · rcases h1 hb with h3 | ⟨e, h3, h4⟩
        · rw [h3] at h; exact h.1
        · injection h3 with h3; subst h3; exact h4
    · cases hb : isAns b
      · rfl
      · rcases h2 hb with h3 | ⟨e, h3, h4⟩
        · rw [h3] at h; exact h.2
        · injection h3 with h3; subst h3; exact h4

theorem go_shape {rs : List (List Tok × List Tok)} {P F : Con} (hrs : rs.all (shapeR P F) = true)
    {n : Nat} {rev rest : List Tok} (h : wfF none (rev.reverse ++ rest) = true) :
    wfF none (go rs P F n rev rest) = true := by
  induction n generalizing rev rest with
  | zero =>
    cases rest with
    | nil => simpa [go] using h
    | cons a rest => exact h
  | succ n ih =>
    cases rest with
    | nil => simpa [go] using h
    | cons c rest =>
      rw [go]
      cases hp : pick P F rev (c :: rest) rs with
      | none => exact ih (by simpa using h)
      | some q =>
        obtain ⟨rest', r⟩ := q
        obtain ⟨l, hm, he, hl, hr⟩ := pick_some hp
        have hs := List.all_eq_true.1 hrs _ hm
        apply ih
        rw [he] at h
        rw [List.reverse_append, List.reverse_reverse, List.append_assoc]
        rw [wfF_append, Bool.and_eq_true] at h ⊢
        refine ⟨h.1, ?_⟩
        cases l with
        | nil => cases hs
        | cons a l =>
          cases r with
          | nil => cases hs
          | cons b r =>
            simp only [shapeR, Bool.and_eq_true] at hs
            obtain ⟨⟨⟨s1, s2⟩, s3⟩, s4⟩ := hs
            have h2 := h.2
            rw [wfF_append, Bool.and_eq_true, wfF, Bool.and_eq_true] at h2 ⊢
            refine ⟨⟨?_, s3⟩, ?_⟩
            · refine adj_swap h2.1.1 ?_ ?_
              · intro hb
                rw [hb] at s1
                simp only [cond_true, Bool.or_eq_true] at s1
                rcases s1 with s1 | s1
                · exact .inl s1
                · right
                  rw [conSch_iff s1] at hl
                  obtain ⟨e, r', rfl, he⟩ := lCtx_sch hl
                  exact ⟨e, lastO_reverse .., he⟩
              · intro hb
                rw [hb] at s2
                simp only [cond_true, Bool.or_eq_true] at s2
                rcases s2 with s1 | s1
                · exact .inl s1
                · right
                  rw [conVow_iff s1] at hl
                  obtain ⟨e, r', rfl, he⟩ := lCtx_vow hl
                  exact ⟨e, lastO_reverse .., he⟩
            · rw [Bool.or_eq_true] at s4
              rcases s4 with s4 | s4
              · have : rest' = [] := by
                  rw [conEow_iff s4] at hr
                  cases rest' with
                  | nil => rfl
                  | cons _ _ => cases hr
                subst this
                rfl
              · rw [lastO_ne (q := none) (by simp)]
                have h3 := h2.2
                rw [lastO_ne (q := none) (by simp)] at h3
                split at s4
                · rename_i e f he hf
                  rw [Bool.and_eq_true] at s4
                  rw [hf]
                  rw [he] at h3
                  exact wfF_mono s4.1 s4.2 h3
                · cases s4

theorem onset_no {a : Tok} (h : isT Brh.ONSET_CONSONANT a = true) (p : Option Tok) : adj p a = true := by
  obtain ⟨c, hc, rfl⟩ := isT_iff.1 h
  have := List.all_eq_true.1 onset_ok c hc
  simp only [Bool.and_eq_true, Bool.not_eq_true'] at this
  cases p <;> rw [adj, this.1, this.2] <;> rfl

theorem vir_adj {a : Tok} (h : isSch a = true) : adj (some a) (.t a!"vir") = true := by
  rw [adj, h]
  rw [show isAns (.t a!"vir") = false by decide]
  cases isSign (.t a!"vir") <;> rfl

theorem goIns_shape {P F : Con} (hP : P = .schCons ∨ P = .bowSch) (hF : F = .onset ∨ F = .onsetEow)
    {rev rest : List Tok} (h : wfF none (rev.reverse ++ rest) = true) :
    wfF none (goIns [.t a!"vir"] P F rev rest) = true := by
  have hl : ∀ {rev}, lCtx P rev = true → ∃ a r, rev = a :: r ∧ isSch a = true := by
    intro rev h
    rcases hP with rfl | rfl
    exacts [lCtx_sch h, lCtx_bow h]
  induction rest generalizing rev with
  | nil =>
    rw [goIns, cond_eq_ite]
    split
    · rename_i hc
      rw [Bool.and_eq_true] at hc
      exfalso
      rcases hF with rfl | rfl <;> cases hc.2
    · simpa using h
  | cons a rest ih =>
    rw [goIns, cond_eq_ite]
    split
    · rename_i hc
      rw [Bool.and_eq_true] at hc
      obtain ⟨b, r, rfl, hb⟩ := hl hc.1
      apply ih
      have ha : isT Brh.ONSET_CONSONANT a = true := by
        rcases hF with rfl | rfl
        · exact hc.2
        · cases rest with
          | nil => exact hc.2
          | cons _ _ => cases hc.2
      rw [wfF_append, Bool.and_eq_true] at h
      rw [show (a :: ([Tok.t a!"vir"].reverse ++ b :: r)).reverse ++ rest =
        (b :: r).reverse ++ (Tok.t a!"vir" :: a :: rest) by simp, wfF_append, Bool.and_eq_true]
      refine ⟨h.1, ?_⟩
      have h2 := h.2
      rw [lastO_reverse] at h2 ⊢
      rw [wfF, Bool.and_eq_true] at h2
      rw [wfF, wfF, Bool.and_eq_true, Bool.and_eq_true]
      exact ⟨vir_adj hb, onset_no ha _, h2.2⟩
    · exact ih (by simpa using h)

theorem run_shape {w : Rw} (hok : w.ok = true) (hs : shapeW w = true) {ts : List Tok}
    (h : wfF none ts = true) : wfF none (w.run ts) = true := by
  rcases tok_ne hok with ⟨r, ht⟩ | hne
  · rw [run_ins ht]
    rw [shapeW, ht] at hs
    simp only [Bool.and_eq_true] at hs
    rw [Rw.ok, ht] at hok
    simp only [Bool.and_eq_true] at hok
    have hP : w.preceding = .schCons ∨ w.preceding = .bowSch := by
      have := hok.2
      cases hp : w.preceding <;> rw [hp] at this <;> first | exact .inl rfl | exact .inr rfl | cases this
    have hF : w.following = .onset ∨ w.following = .onsetEow := by
      have := hs.2
      cases hp : w.following <;> rw [hp] at this <;> first | exact .inl rfl | exact .inr rfl | cases this
    match r, hs.1 with
    | [.t s], h1 =>
      rw [seq_eq] at h1
      subst h1
      exact goIns_shape hP hF h
  · rw [run_go hne]
    have : w.tok.all (shapeR w.preceding w.following) = true := by
      rw [shapeW] at hs
      split at hs
      · rename_i r ht
        exact absurd rfl (hne [] r (by rw [ht]; simp))
      · exact hs
    exact go_shape this h

theorem runs_shape {ws : List Rw} (hok : ws.all Rw.ok = true) (hs : ws.all shapeW = true) {ts : List Tok}
    (h : wfF none ts = true) : wfF none (runs ws ts) = true := by
  induction ws generalizing ts with
  | nil => exact h
  | cons w ws ih =>
    rw [List.all_cons, Bool.and_eq_true] at hok hs
    exact ih hok.2 hs.2 (run_shape hok.1 hs.1 h)

theorem lat_shape {x : Str} (h : lower x) (p : Option Tok) : wfF p (lat x) = true := by
  have key : ∀ ts : List Tok, (∀ a ∈ ts, a ∈ LC) → ∀ p, wfF p ts = true := by
    intro ts
    induction ts with
    | nil => intro _ p; rfl
    | cons a ts ih =>
      intro h p
      rw [wfF, Bool.and_eq_true]
      refine ⟨?_, ih (fun b hb => h b (by simp [hb])) _⟩
      have := List.all_eq_true.1 lc_shape a (h a (by simp))
      simp only [Bool.and_eq_true, Bool.not_eq_true'] at this
      cases p <;> rw [adj, this.1, this.2] <;> rfl
  exact key _ (lat_mem h) p

/-! ## Letters -/

/-- Classes of letters of a script. -/
structure Classes where
  cons : Nat → Bool
  nukta : Nat → Bool
  sign : Nat → Bool
  virama : Nat → Bool
  vowel : Nat → Bool
  anusvara : Nat → Bool

variable (K : Classes)

/-- Letters that carry signs. -/
def Classes.base (c : Nat) : Bool := K.cons c || K.nukta c
/-- Letters that carry an anusvara. -/
def Classes.voc (c : Nat) : Bool := K.base c || (K.sign c || K.vowel c)
/-- Marks. -/
def Classes.mark (c : Nat) : Bool := (K.sign c || K.virama c) || (K.nukta c || K.anusvara c)

/-- What may precede a letter. -/
def Classes.after : Option Nat → Nat → Bool
  | none, c => !K.mark c
  | some d, c => (bif K.sign c || K.virama c then K.base d else true) &&
    ((bif K.nukta c then K.cons d else true) && (bif K.anusvara c then K.voc d else true))

def Classes.ok : Option Nat → Str → Bool
  | _, [] => true
  | p, c :: s => K.after p c && Classes.ok (some c) s

def lastC (p : Option Nat) : Str → Option Nat
  | [] => p
  | c :: s => lastC (some c) s

theorem ok_append (p : Option Nat) (u v : Str) : K.ok p (u ++ v) = (K.ok p u && K.ok (lastC p u) v) := by
  induction u generalizing p with
  | nil => rfl
  | cons c u ih => rw [List.cons_append, Classes.ok, Classes.ok, lastC, ih, Bool.and_assoc]

/-- The condition of the letters of a symbol. -/
def letterOk (d : Bool) (a : Tok) : Bool :=
  bif isSign a then (match brT d a with
    | [] => isVow a && !isSch a
    | [c] => (K.sign c || K.virama c) && (!K.nukta c && (!K.anusvara c && (!isSch a && (!isVow a || K.voc c))))
    | _ => false)
  else bif isAns a then (match brT d a with
    | [c] => K.anusvara c && (!(K.sign c || K.virama c) && (!K.nukta c && (!isSch a && !isVow a)))
    | _ => false)
  else match brT d a with
    | [] => false
    | c :: s => !K.mark c && (K.ok (some c) s && match lastC (some c) s with
      | none => false
      | some e => (!isSch a || K.base e) && (!isVow a || K.voc e))

/-- Relation of the last symbol and the last letter. -/
def RelL : Option Tok → Option Nat → Prop
  | none, _ => True
  | some a, c => (isSch a = true → ∃ d, c = some d ∧ K.base d = true) ∧
    (isVow a = true → ∃ d, c = some d ∧ K.voc d = true)

theorem letters_ok {d : Bool} {ts : List Tok} (hl : ∀ a ∈ ts, letterOk K d a = true) {p : Option Tok}
    {c : Option Nat} (hR : RelL K p c) (h : wfF p ts = true) : K.ok c (ts.flatMap (brT d)) = true := by
  induction ts generalizing p c with
  | nil => rfl
  | cons a ts ih =>
    rw [wfF, Bool.and_eq_true] at h
    have ha := hl a (by simp)
    have ih' := fun {p c} => ih (p := p) (c := c) (fun b hb => hl b (by simp [hb]))
    rw [List.flatMap_cons, ok_append, Bool.and_eq_true]
    rw [letterOk] at ha
    cases hs : isSign a with
    | true =>
      rw [hs, cond_true] at ha
      have hsch : ∃ b, p = some b ∧ isSch b = true := by
        have := h.1
        cases p with
        | none => rw [adj, hs] at this; cases this
        | some b => rw [adj, hs, Bool.and_eq_true] at this; exact ⟨b, rfl, this.1⟩
      obtain ⟨b, rfl, hb⟩ := hsch
      obtain ⟨e, rfl, he⟩ := hR.1 hb
      split at ha
      · rename_i hbr
        rw [Bool.and_eq_true, Bool.not_eq_true'] at ha
        rw [hbr]
        refine ⟨rfl, ih' (p := some a) ⟨fun h3 => ?_, fun _ => ⟨e, rfl, ?_⟩⟩ h.2⟩
        · rw [ha.2] at h3; cases h3
        · rw [Classes.voc, he]; rfl
      · rename_i k hbr
        simp only [Bool.and_eq_true, Bool.not_eq_true'] at ha
        obtain ⟨a1, a2, a3, a4, a5⟩ := ha
        rw [hbr]
        refine ⟨?_, ih' (p := some a) ⟨fun h3 => ?_, fun h3 => ⟨k, rfl, ?_⟩⟩ h.2⟩
        · rw [Classes.ok, Classes.ok, Classes.after, a1, a2, a3, he]; rfl
        · rw [a4] at h3; cases h3
        · rw [h3] at a5; simpa using a5
      · cases ha
    | false =>
      rw [hs, cond_false] at ha
      cases hn : isAns a with
      | true =>
        rw [hn, cond_true] at ha
        have hv : ∃ b, p = some b ∧ isVow b = true := by
          have := h.1
          cases p with
          | none => rw [adj, hn, Bool.or_true] at this; cases this
          | some b => rw [adj, hn, Bool.and_eq_true] at this; exact ⟨b, rfl, this.2⟩
        obtain ⟨b, rfl, hb⟩ := hv
        obtain ⟨e, rfl, he⟩ := hR.2 hb
        split at ha
        · rename_i k hbr
          simp only [Bool.and_eq_true, Bool.not_eq_true'] at ha
          obtain ⟨a1, a2, a3, a4, a5⟩ := ha
          rw [hbr]
          refine ⟨?_, ih' (p := some a) ⟨fun h3 => ?_, fun h3 => ?_⟩ h.2⟩
          · rw [Classes.ok, Classes.ok, Classes.after, a1, a2, a3, he]; rfl
          · rw [a4] at h3; cases h3
          · rw [a5] at h3; cases h3
        · cases ha
      | false =>
        rw [hn, cond_false] at ha
        split at ha
        · cases ha
        · rename_i k s hbr
          rw [Bool.and_eq_true, Bool.and_eq_true, Bool.not_eq_true'] at ha
          obtain ⟨a1, a2, a3⟩ := ha
          rw [hbr]
          constructor
          · rw [Classes.ok, Bool.and_eq_true]
            refine ⟨?_, a2⟩
            have a1' := a1
            rw [Classes.mark, Bool.or_eq_false_iff] at a1'
            obtain ⟨b1, b2⟩ := a1'
            rw [Bool.or_eq_false_iff] at b2
            cases c with
            | none => rw [Classes.after, a1]; rfl
            | some e => rw [Classes.after, b1, b2.1, b2.2]; rfl
          · rw [lastC]
            split at a3
            · cases a3
            · rename_i e he
              rw [he]
              rw [Bool.and_eq_true] at a3
              refine ih' (p := some a) ⟨fun h3 => ⟨e, rfl, ?_⟩, fun h3 => ⟨e, rfl, ?_⟩⟩ h.2
              · rw [h3] at a3; simpa using a3.1
              · rw [h3] at a3; simpa using a3.2

/-- The letters of Devanagari. -/
def devaK : Classes :=
  ⟨fun c => Nat.ble 0x915 c && Nat.ble c 0x939, fun c => Nat.beq c 0x93c,
   fun c => Nat.ble 0x93e c && Nat.ble c 0x94c, fun c => Nat.beq c 0x94d,
   fun c => Nat.ble 0x904 c && Nat.ble c 0x914, fun c => Nat.beq c 0x902⟩
/-- The letters of Tamil. -/
def tamlK : Classes :=
  ⟨fun c => Nat.ble 0xb95 c && Nat.ble c 0xbb9, fun _ => false,
   fun c => Nat.ble 0xbbe c && Nat.ble c 0xbcc, fun c => Nat.beq c 0xbcd,
   fun c => Nat.ble 0xb85 c && Nat.ble c 0xb94, fun c => Nat.beq c 0xb82⟩

section
set_option maxRecDepth 100000
theorem hi_letters : (alphas (typOps hi) LC).all (letterOk devaK true) = true := by decide +kernel
theorem ta_letters : (alphas (typOps ta) LC).all (letterOk tamlK false) = true := by decide +kernel
end

theorem shape_of {ws : List Rw} (hok : ws.all Rw.ok = true) (hs : ws.all shapeW = true) {d : Bool}
    (hl : (alphas ws LC).all (letterOk K d) = true) {x : Str} (hx : lower x) :
    K.ok none ((runs ws (lat x)).flatMap (brT d)) = true :=
  letters_ok K (fun a ha => List.all_eq_true.1 hl a (runs_alpha hok (lat_mem hx) a ha)) (p := none) trivial
    (runs_shape hok hs (lat_shape hx _))

theorem hi_shape {x : Str} (hx : lower x) : devaK.ok none (brhOf hi x) = true := by
  have h1 := (typOps_ok (P := hi) (.inl rfl)).1
  have h2 : (typOps hi).all shapeW = true := List.all_eq_true.1 shape_ok hi List.mem_cons_self
  exact shape_of devaK h1 h2 hi_letters hx

theorem ta_shape {x : Str} (hx : lower x) : tamlK.ok none (brhOf ta x) = true := by
  have h1 := (typOps_ok (P := ta) (.inr rfl)).1
  have h2 : (typOps ta).all shapeW = true :=
    List.all_eq_true.1 shape_ok ta (List.mem_cons_of_mem _ List.mem_cons_self)
  exact shape_of tamlK h1 h2 ta_letters hx

/-- Reading of the condition at one place. -/
theorem ok_split {p : Option Nat} {u v : Str} {c : Nat} (h : K.ok p (u ++ c :: v) = true) :
    K.after (lastC p u) c = true := by
  rw [ok_append, Bool.and_eq_true, Classes.ok, Bool.and_eq_true] at h
  exact h.2.1

theorem lastC_concat (p : Option Nat) (u : Str) (e : Nat) : lastC p (u ++ [e]) = some e := by
  induction u generalizing p with
  | nil => rfl
  | cons c u ih => exact ih _

theorem lastC_some {u : Str} {d : Nat} (h : lastC none u = some d) : ∃ u', u = u' ++ [d] := by
  rcases List.eq_nil_or_concat u with rfl | ⟨u', e, rfl⟩
  · cases h
  · rw [List.concat_eq_append] at h ⊢
    rw [lastC_concat] at h
    injection h with h
    exact ⟨u', by rw [h]⟩

end Derom
end Nisaba.NT
