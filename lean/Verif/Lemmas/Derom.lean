import Verif.Model.Derom
import Verif.Lemmas.NtIso
/-!
# The rules of the deromanizer as functions on sequences of symbols
-/
namespace Nisaba.NT
namespace Derom

/-! ## Functions -/

/-- Equality of symbols, in a form that evaluates quickly. -/
def teq : Tok → Tok → Bool
  | .g a, .g b => seq a b
  | .eq, .eq => true
  | .p a, .p b => seq a b
  | .t a, .t b => seq a b
  | _, _ => false

/-- Prefix of sequences: the rest after it. -/
def tdrop : List Tok → List Tok → Option (List Tok)
  | [], x => some x
  | _ :: _, [] => none
  | a :: l, b :: x => bif teq a b then tdrop l x else none

/-- Translit of a list of characters. -/
def isT (cs : List Chr) : Tok → Bool
  | .t s => cs.any fun c => seq c.typ s
  | _ => false
/-- Grapheme of a list of characters. -/
def isG (cs : List Chr) : Tok → Bool
  | .g s => cs.any fun c => seq c.typ s
  | _ => false

/-- Left contexts, on the reversed output. -/
def lCtx : Con → List Tok → Bool
  | .eps, _ => true
  | .nul, _ => true
  | .schCons, a :: _ => isT Brh.SCHWA_BEARING a
  | .vowel, a :: _ => isG Ltn.ASCII_VOWEL a
  | .bow, [] => true
  | .bowSch, [a] => isT Brh.SCHWA_BEARING a
  | _, _ => false

/-- Right contexts. -/
def rCtx : Con → List Tok → Bool
  | .eps, _ => true
  | .nul, _ => true
  | .vowel, a :: _ => isG Ltn.ASCII_VOWEL a
  | .bp, a :: _ => teq a (.g a!"b") || teq a (.g a!"p")
  | .consNm, [] => true
  | .consNm, a :: _ => isG Ltn.ASCII_CONS a && !(teq a (.g a!"n") || teq a (.g a!"m"))
  | .onset, a :: _ => isT Brh.ONSET_CONSONANT a
  | .onsetEow, [a] => isT Brh.ONSET_CONSONANT a
  | .vowelSVir, a :: _ => isT Brh.VOWEL_SIGN a || teq a (.t a!"vir")
  | .eow, [] => true
  | _, _ => false

/-- The pairs of strings of a rule. -/
def Rw.flat (w : Rw) : List (Str × Str) := w.ls.flatMap fun p => prods p.1 p.2

/-- The pairs of sequences of a rule. -/
def Rw.tok (w : Rw) : List (List Tok × List Tok) :=
  w.flat.map fun p => ((toks p.1).getD [], (toks p.2).getD [])

/-- The applicable pair at a place: the rest and what is written. -/
def pick (P F : Con) (rev rest : List Tok) : List (List Tok × List Tok) → Option (List Tok × List Tok)
  | [] => none
  | (l, r) :: rs => match tdrop l rest with
    | some rest' => bif lCtx P rev && rCtx F rest' then some (rest', r) else pick P F rev rest rs
    | none => pick P F rev rest rs

/-- Rewriting. -/
def go (rs : List (List Tok × List Tok)) (P F : Con) : Nat → List Tok → List Tok → List Tok
  | _, rev, [] => rev.reverse
  | 0, rev, rest => rev.reverse ++ rest
  | n + 1, rev, a :: rest => match pick P F rev (a :: rest) rs with
    | some (rest', r) => go rs P F n (r.reverse ++ rev) rest'
    | none => go rs P F n (a :: rev) rest

/-- Inserting. -/
def goIns (r : List Tok) (P F : Con) : List Tok → List Tok → List Tok
  | rev, [] => bif lCtx P rev && rCtx F [] then (r.reverse ++ rev).reverse else rev.reverse
  | rev, a :: rest => bif lCtx P rev && rCtx F (a :: rest) then goIns r P F (a :: (r.reverse ++ rev)) rest
    else goIns r P F (a :: rev) rest

/-- The function of a rule. -/
def Rw.run (w : Rw) (ts : List Tok) : List Tok := match w.tok with
  | [([], r)] => goIns r w.preceding w.following [] ts
  | rs => go rs w.preceding w.following ts.length [] ts

/-- The function of a list of rules. -/
def runs (ws : List Rw) (ts : List Tok) : List Tok := ws.foldl (fun ts w => w.run ts) ts

/-- The symbols of a Latin text. -/
def lat (x : Str) : List Tok := x.map fun c => .g [c]

/-- The glyph of a translit. -/
def glT : Tok → Str
  | .t s => (chOf s).glyph
  | _ => []
/-- The letters of a translit. -/
def brT (deva : Bool) (a : Tok) : Str :=
  match (lsTr2brh deva).find? fun e => seq e.1 (enc1 a) with
  | some e => e.2
  | none => []

/-- The deromanization in ISO. -/
def isoOf (P : Params) (x : Str) : Str := (runs (typ2iso P) (runs (typOps P) (lat x))).flatMap glT
/-- The deromanization in the script. -/
def brhOf (P : Params) (x : Str) : Str := (runs (typOps P) (lat x)).flatMap (brT P.deva)

/-! ## Sequences -/

/-- Graphemes and translits with a name. -/
def Good1 (a : Tok) : Prop := a.plain ∧ a.name ≠ [] ∧ ((∃ s, a = .g s) ∨ ∃ s, a = .t s)
def Good (ts : List Tok) : Prop := ∀ a ∈ ts, Good1 a

theorem Good.plain {ts : List Tok} (h : Good ts) : Plain ts := fun a ha => (h a ha).1
theorem good_nil : Good [] := fun a ha => by cases ha
theorem good_cons {a : Tok} {ts : List Tok} : Good (a :: ts) ↔ Good1 a ∧ Good ts := by simp [Good]
theorem good_append {xs ys : List Tok} : Good (xs ++ ys) ↔ Good xs ∧ Good ys := by
  simp only [Good, List.mem_append]
  constructor
  · intro h; exact ⟨fun a ha => h a (.inl ha), fun a ha => h a (.inr ha)⟩
  · rintro ⟨h, k⟩ a (ha | ha); exacts [h a ha, k a ha]
theorem good_reverse {ts : List Tok} : Good ts.reverse ↔ Good ts := by simp [Good]

/-- The parts of the encoding of a symbol. -/
theorem Good1.enc {a : Tok} (h : Good1 a) : ∃ o n k, enc1 a = o :: (n ++ [k]) ∧ n ≠ [] ∧
    (∀ c ∈ n, nameChar c = true) ∧ ((o = 60 ∧ k = 62) ∨ (o = 96 ∧ k = 96)) := by
  obtain ⟨h1, h2, ⟨s, rfl⟩ | ⟨s, rfl⟩⟩ := h
  · exact ⟨60, s, 62, rfl, h2, h1, .inl ⟨rfl, rfl⟩⟩
  · exact ⟨96, s, 96, rfl, h2, h1, .inr ⟨rfl, rfl⟩⟩

theorem good_chars {ts : List Tok} (h : Good ts) {c : Nat} (hc : c ∈ enc ts) : c ≠ 61 ∧ c < 256 := by
  simp only [enc, List.mem_flatMap] at hc
  obtain ⟨a, ha, hc⟩ := hc
  obtain ⟨o, n, k, he, _, h3, h4⟩ := (h a ha).enc
  rw [he] at hc
  simp only [List.mem_cons, List.mem_append, List.not_mem_nil, or_false] at hc
  rcases hc with rfl | hc | rfl
  · omega
  · have := nameChar_lt (h3 c hc); omega
  · omega

theorem teq_iff {a b : Tok} : teq a b = true ↔ a = b := by
  cases a <;> cases b <;> simp [teq, seq_eq]

theorem tdrop_iff {l x y : List Tok} : tdrop l x = some y ↔ x = l ++ y := by
  induction l generalizing x with
  | nil => simp [tdrop]
  | cons a l ih =>
    cases x with
    | nil => simp [tdrop]
    | cons b x =>
      rw [tdrop, cond_eq_ite]
      by_cases h : teq a b = true
      · rw [if_pos h, ih]
        rw [teq_iff] at h
        simp [h]
      · rw [if_neg h]
        rw [teq_iff] at h
        simp only [reduceCtorEq, List.cons_append, List.cons.injEq, false_iff, not_and]
        intro h2
        exact absurd h2.symm h

/-! ## Contexts -/

/-- A symbol at the end of an encoding. -/
theorem enc_suffix1 {ts : List Tok} (hts : Good ts) {a : Tok} (ha : Good1 a) {u : Str}
    (h : bos :: enc ts = u ++ enc1 a) : ∃ ts', ts = ts' ++ [a] ∧ u = bos :: enc ts' := by
  obtain ⟨o, n, k, he, hn, h3, h4⟩ := ha.enc
  rcases List.eq_nil_or_concat ts with rfl | ⟨ts', b, rfl⟩
  · rw [he, enc_nil] at h
    have h5 := congrArg List.getLast? h
    rw [show u ++ o :: (n ++ [k]) = (u ++ o :: n) ++ [k] by simp, List.getLast?_concat] at h5
    have h6 : bos = k := by simpa using h5
    exfalso
    revert h6
    rw [bos]
    omega
  · rw [List.concat_eq_append] at *
    have hb := hts b (by simp)
    obtain ⟨o', n', k', he', hn', h3', h4'⟩ := hb.enc
    rw [enc_append, show enc [b] = enc1 b by simp [enc], ← List.cons_append] at h
    rw [he, he'] at h
    have h5 := congrArg List.reverse h
    simp only [List.reverse_append, List.reverse_cons, List.reverse_nil, List.nil_append,
      List.append_assoc, List.cons_append, List.cons.injEq] at h5
    obtain ⟨h6, h7⟩ := h5
    have hoo : o' = o := by omega
    subst hoo
    have hd : nameChar o' = false := by rcases h4 with h | h <;> rw [h.1] <;> rfl
    have hm : ∀ m : Str, (∀ c ∈ m, nameChar c = true) → o' ∉ m.reverse := by
      intro m hm hc
      rw [hm o' (by simpa using hc)] at hd
      cases hd
    obtain ⟨h8, h9⟩ := split_unique h7 (hm n' h3') (hm n h3)
    have hab : enc1 a = enc1 b := by rw [he, he', List.reverse_inj.1 h8, h6]
    have := (enc1_inj (x := []) (y := []) ha.1 hb.1 (by rw [hab])).1
    subst this
    refine ⟨ts', rfl, ?_⟩
    have := congrArg List.reverse h9
    simpa using this.symm

/-- Inside of a symbol no symbol ends. -/
theorem enc_suffix_mid {ts : List Tok} (hts : Good ts) {a b : Tok} (ha : Good1 a) (hb : Good1 b)
    {u p s : Str} (hp : p ≠ []) (hs : s ≠ []) (hps : enc1 b = p ++ s)
    (h : bos :: (enc ts ++ p) = u ++ enc1 a) : False := by
  obtain ⟨o, n, k, he, hn, h3, h4⟩ := ha.enc
  obtain ⟨o', n', k', he', hn', h3', h4'⟩ := hb.enc
  obtain ⟨q, d, rfl⟩ : ∃ q d, p = q ++ [d] := by
    rcases List.eq_nil_or_concat p with h | ⟨q, d, h⟩
    · exact absurd h hp
    · exact ⟨q, d, by simpa using h⟩
  obtain ⟨s', e, rfl⟩ : ∃ q d, s = q ++ [d] := by
    rcases List.eq_nil_or_concat s with h | ⟨q, d, h⟩
    · exact absurd h hs
    · exact ⟨q, d, by simpa using h⟩
  rw [he] at h
  have hdk : d = k ∧ bos :: (enc ts ++ q) = u ++ o :: n := by
    have h5 : (bos :: (enc ts ++ q)) ++ [d] = (u ++ o :: n) ++ [k] := by simpa using h
    have := List.append_inj' h5 rfl
    exact ⟨by simpa using this.2, this.1⟩
  obtain ⟨rfl, h6⟩ := hdk
  have h7 : q ++ d :: s' = o' :: n' := by
    have h8 : (q ++ d :: s') ++ [e] = (o' :: n') ++ [k'] := by
      rw [he'] at hps
      simpa using hps.symm
    exact (List.append_inj' h8 rfl).1
  cases q with
  | nil =>
    rw [List.append_nil] at h6
    obtain ⟨m, f, rfl⟩ : ∃ q d, n = q ++ [d] := by
      rcases List.eq_nil_or_concat n with h | ⟨q, d, h⟩
      · exact absurd h hn
      · exact ⟨q, d, by simpa using h⟩
    have hf := nameChar_lt (h3 f (by simp))
    rcases List.eq_nil_or_concat ts with rfl | ⟨ts', c, rfl⟩
    · rw [enc_nil] at h6
      have h9 := congrArg List.length h6
      simp at h9
      omega
    · obtain ⟨o2, n2, k2, he2, _, _, h42⟩ := (hts c (by simp)).enc
      rw [List.concat_eq_append, enc_append, show enc [c] = enc1 c by simp [enc], he2] at h6
      have h9 : (bos :: (enc ts' ++ o2 :: n2)) ++ [k2] = (u ++ o :: m) ++ [f] := by simpa using h6
      have := (List.append_inj' h9 rfl).2
      simp at this
      omega
  | cons x q =>
    injection h7 with _ h7
    have := nameChar_lt (h3' d (by rw [← h7]; simp))
    omega

/-- A symbol at the start of an encoding. -/
theorem enc_prefix1 {ts : List Tok} (hts : Good ts) {a : Tok} (ha : Good1 a) {v : Str}
    (h : enc ts ++ [eos] = enc1 a ++ v) : ∃ ts', ts = a :: ts' ∧ v = enc ts' ++ [eos] := by
  cases ts with
  | nil =>
    obtain ⟨o, n, k, he, hn, h3, h4⟩ := ha.enc
    rw [he] at h
    have := congrArg List.length h
    simp [enc_nil] at this
  | cons b ts =>
    rw [good_cons] at hts
    rw [enc_cons, List.append_assoc] at h
    obtain ⟨rfl, h2⟩ := enc1_inj hts.1.1 ha.1 h
    exact ⟨ts, rfl, h2.symm⟩

theorem skip_nil : SKIP [] := .inl (.inr rfl)

/-- Without the sign `=` nothing is skipped. -/
theorem endsIn_skip {p : Lang} {x : Str} (hx : 61 ∉ x) : endsIn (cat p SKIP) x ↔ endsIn p x := by
  constructor
  · rintro ⟨u, v, rfl, a, b, rfl, ha, hb⟩
    have := skip_eq hb (fun hc => hx (by simp [hc]))
    subst this
    exact ⟨u, a, by simp, ha⟩
  · rintro ⟨u, v, rfl, h⟩
    exact ⟨u, v, rfl, v, [], by simp, h, skip_nil⟩

theorem startsIn_skip {p : Lang} {x : Str} (hx : 61 ∉ x) :
    startsIn (cat SKIP p) x ↔ startsIn p x := by
  constructor
  · rintro ⟨u, v, rfl, a, b, rfl, ha, hb⟩
    have := skip_eq ha (fun hc => hx (by simp [hc]))
    subst this
    exact ⟨b, v, by simp, hb⟩
  · rintro ⟨u, v, rfl, h⟩
    exact ⟨u, v, rfl, [], u, by simp, skip_nil, h⟩

theorem skipRight_eq {y : Str} (h : SKIP_RIGHT_SIDE y) (hy : 61 ∉ y) : y = [] :=
  skip_eq (.inr h) hy

/-- Names of characters that occur in contexts are good. -/
def nameOk (s : Str) : Bool := nameB s && !s.isEmpty

theorem good_t {s : Str} (h : nameOk s = true) : Good1 (.t s) := by
  simp only [nameOk, Bool.and_eq_true, Bool.not_eq_true', List.isEmpty_eq_false_iff] at h
  exact ⟨nameB_iff.1 h.1, h.2, .inr ⟨s, rfl⟩⟩
theorem good_g {s : Str} (h : nameOk s = true) : Good1 (.g s) := by
  simp only [nameOk, Bool.and_eq_true, Bool.not_eq_true', List.isEmpty_eq_false_iff] at h
  exact ⟨nameB_iff.1 h.1, h.2, .inl ⟨s, rfl⟩⟩

section
set_option maxRecDepth 100000
theorem names_ok : (Brh.SCHWA_BEARING ++ Brh.ONSET_CONSONANT ++ Brh.VOWEL_SIGN ++ Ltn.ASCII_VOWEL ++
    Ltn.ASCII_CONS).all (fun c => nameOk c.typ) = true := by decide +kernel
theorem refs_ok : (seq (ltn a!"B") (enc1 (.g a!"b")) && seq (ltn a!"P") (enc1 (.g a!"p")) &&
    seq (ltn a!"N") (enc1 (.g a!"n")) && seq (ltn a!"M") (enc1 (.g a!"m")) &&
    seq (iso a!"VIR") (enc1 (.t a!"vir"))) = true := by decide +kernel
end

theorem isT_iff {cs : List Chr} {a : Tok} : isT cs a = true ↔ ∃ c ∈ cs, a = .t c.typ := by
  cases a with
  | t s =>
    rw [isT, List.any_eq_true]
    constructor
    · rintro ⟨c, hc, h⟩; exact ⟨c, hc, by rw [seq_eq.1 h]⟩
    · rintro ⟨c, hc, h⟩; injection h with h; exact ⟨c, hc, seq_eq.2 h.symm⟩
  | _ => simp [isT]

theorem isG_iff {cs : List Chr} {a : Tok} : isG cs a = true ↔ ∃ c ∈ cs, a = .g c.typ := by
  cases a with
  | g s =>
    rw [isG, List.any_eq_true]
    constructor
    · rintro ⟨c, hc, h⟩; exact ⟨c, hc, by rw [seq_eq.1 h]⟩
    · rintro ⟨c, hc, h⟩; injection h with h; exact ⟨c, hc, seq_eq.2 h.symm⟩
  | _ => simp [isG]

/-- A set of symbols as a language. -/
def symL (A : Tok → Prop) : Lang := fun x => ∃ a, A a ∧ x = enc1 a

theorem trUnion_eq (cs : List Chr) : trUnion cs = symL fun a => isT cs a = true := by
  funext x
  apply propext
  constructor
  · rintro ⟨c, hc, rfl⟩; exact ⟨.t c.typ, isT_iff.2 ⟨c, hc, rfl⟩, rfl⟩
  · rintro ⟨a, ha, rfl⟩
    obtain ⟨c, hc, rfl⟩ := isT_iff.1 ha
    exact ⟨c, hc, rfl⟩

theorem grUnion_eq (cs : List Chr) : grUnion cs = symL fun a => isG cs a = true := by
  funext x
  apply propext
  constructor
  · rintro ⟨c, hc, rfl⟩; exact ⟨.g c.typ, isG_iff.2 ⟨c, hc, rfl⟩, rfl⟩
  · rintro ⟨a, ha, rfl⟩
    obtain ⟨c, hc, rfl⟩ := isG_iff.1 ha
    exact ⟨c, hc, rfl⟩

theorem ends_sym {A : Tok → Prop} (hA : ∀ a, A a → Good1 a) {ts : List Tok} (hts : Good ts) :
    endsIn (symL A) (bos :: enc ts) ↔ ∃ a ts', ts.reverse = a :: ts' ∧ A a := by
  constructor
  · rintro ⟨u, v, h, a, ha, rfl⟩
    obtain ⟨ts', rfl, _⟩ := enc_suffix1 hts (hA a ha) h
    exact ⟨a, ts'.reverse, by simp, ha⟩
  · rintro ⟨a, ts', h, ha⟩
    have : ts = ts'.reverse ++ [a] := by rw [← List.reverse_inj, h]; simp
    subst this
    exact ⟨bos :: enc ts'.reverse, enc1 a, by rw [enc_append]; simp [enc], a, ha, rfl⟩

theorem starts_sym {A : Tok → Prop} (hA : ∀ a, A a → Good1 a) {ts : List Tok} (hts : Good ts) :
    startsIn (symL A) (enc ts ++ [eos]) ↔ ∃ a ts', ts = a :: ts' ∧ A a := by
  constructor
  · rintro ⟨u, v, h, a, ha, rfl⟩
    obtain ⟨ts', rfl, _⟩ := enc_prefix1 hts (hA a ha) h
    exact ⟨a, ts', rfl, ha⟩
  · rintro ⟨a, ts', rfl, ha⟩
    exact ⟨enc1 a, enc ts' ++ [eos], by rw [enc_cons, List.append_assoc], a, ha, rfl⟩

theorem eow_iff {x : Str} (hx : 61 ∉ x) : EOW x ↔ x = [eos] := by
  constructor
  · rintro ⟨u, v, rfl, hu, rfl⟩
    have : u = [] := by
      rcases hu with hu | rfl
      · exact skipRight_eq hu (fun hc => hx (by simp [hc]))
      · rfl
    rw [this]; rfl
  · rintro rfl; exact ⟨[], [eos], rfl, .inr rfl, rfl⟩

theorem starts_eow {ts : List Tok} (hts : Good ts) {u : Str} (hu : 61 ∉ enc ts ++ [eos]) :
    (∃ p, enc ts ++ [eos] = u ++ p ∧ EOW u) → ts = [] := by
  rintro ⟨p, h, he⟩
  have : u = [eos] := (eow_iff (fun hc => hu (by rw [h]; simp [hc]))).1 he
  subst this
  cases ts with
  | nil => rfl
  | cons a ts =>
    exfalso
    rw [good_cons] at hts
    obtain ⟨o, n, k, he, _, _, h4⟩ := hts.1.enc
    rw [enc_cons, he] at h
    injection h with h1 _
    rw [eos] at h1
    omega

theorem bow_iff {x : Str} (hx : 61 ∉ x) : BOW x ↔ x = [bos] := by
  constructor
  · rintro ⟨u, v, rfl, rfl, hv⟩
    have : v = [] := by
      rcases hv with hv | rfl
      · exact skipLeft_eq hv (fun hc => hx (by simp [hc]))
      · rfl
    rw [this]; rfl
  · rintro rfl; exact ⟨[bos], [], rfl, rfl, .inr rfl⟩

/-- The contexts used on the left. -/
def okL : Con → Bool
  | .eps => true | .nul => true | .schCons => true | .vowel => true | .bow => true | .bowSch => true
  | _ => false
/-- The contexts used on the right. -/
def okR : Con → Bool
  | .eps => true | .nul => true | .vowel => true | .bp => true | .consNm => true | .onset => true
  | .onsetEow => true | .vowelSVir => true | .eow => true
  | _ => false

/-- The left language of a rule. -/
def Con.l (P : Con) : Lang := match P.lang with | none => str [] | some p => cat p SKIP
/-- The right language of a rule. -/
def Con.r (F : Con) : Lang := match F.lang with | none => str [] | some f => cat SKIP f

theorem good_in {cs : List Chr} (h : ∀ c ∈ cs, c ∈ Brh.SCHWA_BEARING ++ Brh.ONSET_CONSONANT ++
    Brh.VOWEL_SIGN ++ Ltn.ASCII_VOWEL ++ Ltn.ASCII_CONS) {a : Tok} :
    (isT cs a = true → Good1 a) ∧ (isG cs a = true → Good1 a) := by
  constructor
  · intro ha
    obtain ⟨c, hc, rfl⟩ := isT_iff.1 ha
    exact good_t (List.all_eq_true.1 names_ok c (h c hc))
  · intro ha
    obtain ⟨c, hc, rfl⟩ := isG_iff.1 ha
    exact good_g (List.all_eq_true.1 names_ok c (h c hc))

theorem good_sch {a : Tok} (h : isT Brh.SCHWA_BEARING a = true) : Good1 a :=
  (good_in fun c hc => by simp only [List.mem_append]; tauto).1 h
theorem good_onset {a : Tok} (h : isT Brh.ONSET_CONSONANT a = true) : Good1 a :=
  (good_in fun c hc => by simp only [List.mem_append]; tauto).1 h
theorem good_vs {a : Tok} (h : isT Brh.VOWEL_SIGN a = true) : Good1 a :=
  (good_in fun c hc => by simp only [List.mem_append]; tauto).1 h
theorem good_vow {a : Tok} (h : isG Ltn.ASCII_VOWEL a = true) : Good1 a :=
  (good_in fun c hc => by simp only [List.mem_append]; tauto).2 h
theorem good_con {a : Tok} (h : isG Ltn.ASCII_CONS a = true) : Good1 a :=
  (good_in fun c hc => by simp only [List.mem_append]; tauto).2 h

theorem no61 {ts : List Tok} (h : Good ts) : 61 ∉ bos :: enc ts := by
  intro hc
  rw [List.mem_cons] at hc
  rcases hc with hc | hc
  · revert hc; decide
  · exact (good_chars h hc).1 rfl
theorem no61' {ts : List Tok} (h : Good ts) : 61 ∉ enc ts ++ [eos] := by
  intro hc
  rw [List.mem_append] at hc
  rcases hc with hc | hc
  · exact (good_chars h hc).1 rfl
  · revert hc; decide
theorem nobos {ts : List Tok} (h : Good ts) : bos ∉ enc ts := by
  intro hc
  have := (good_chars h hc).2
  revert this; decide

theorem left_iff {P : Con} (hP : okL P = true) (R : Lang) {ts : List Tok} (hts : Good ts) :
    (ctxOf P.l R).left (enc ts) ↔ lCtx P ts.reverse = true := by
  have h61 := no61 hts
  have triv : endsIn (str []) (bos :: enc ts) := ⟨bos :: enc ts, [], by simp, rfl⟩
  change endsIn P.l (bos :: enc ts) ↔ _
  cases P with
  | eps => exact ⟨fun _ => rfl, fun _ => triv⟩
  | nul => exact ⟨fun _ => rfl, fun _ => (endsIn_skip h61).2 triv⟩
  | schCons =>
    rw [show Con.l .schCons = cat (trUnion Brh.SCHWA_BEARING) SKIP from rfl, endsIn_skip h61, trUnion_eq,
      ends_sym (fun a => good_sch) hts]
    constructor
    · rintro ⟨a, ts', h, ha⟩; rw [h]; exact ha
    · intro h
      cases hr : ts.reverse with
      | nil => rw [hr] at h; cases h
      | cons a ts' => rw [hr] at h; exact ⟨a, ts', rfl, h⟩
  | vowel =>
    rw [show Con.l .vowel = cat (grUnion Ltn.ASCII_VOWEL) SKIP from rfl, endsIn_skip h61, grUnion_eq,
      ends_sym (fun a => good_vow) hts]
    constructor
    · rintro ⟨a, ts', h, ha⟩; rw [h]; exact ha
    · intro h
      cases hr : ts.reverse with
      | nil => rw [hr] at h; cases h
      | cons a ts' => rw [hr] at h; exact ⟨a, ts', rfl, h⟩
  | bow =>
    rw [show Con.l .bow = cat BOW SKIP from rfl, endsIn_skip h61]
    constructor
    · rintro ⟨u, v, h, hv⟩
      have := (bow_iff (fun hc => h61 (by rw [h]; simp [hc]))).1 hv
      subst this
      cases u with
      | nil =>
        injection h with _ h
        cases ts with
        | nil => rfl
        | cons a ts =>
          exfalso
          have := List.length_pos_iff.2 (enc1_ne a)
          rw [enc_cons] at h
          have := congrArg List.length h
          simp at this
          exact absurd this.1 (enc1_ne a)
      | cons b u =>
        injection h with _ h
        exact absurd (by rw [h]; simp) (nobos hts)
    · intro h
      cases hr : ts.reverse with
      | nil =>
        have : ts = [] := by simpa using hr
        subst this
        exact ⟨[], [bos], rfl, (bow_iff (by decide)).2 rfl⟩
      | cons a ts' => rw [hr] at h; cases h
  | bowSch =>
    rw [show Con.l .bowSch = cat (cat BOW (trUnion Brh.SCHWA_BEARING)) SKIP from rfl, endsIn_skip h61]
    constructor
    · rintro ⟨u, v, h, b, x, rfl, hb, hx⟩
      have hb' := (bow_iff (fun hc => h61 (by rw [h]; simp [hc]))).1 hb
      subst hb'
      rw [trUnion_eq] at hx
      obtain ⟨a, ha, rfl⟩ := hx
      rw [← List.append_assoc] at h
      obtain ⟨ts', rfl, h2⟩ := enc_suffix1 hts (good_sch ha) h
      rw [good_append] at hts
      cases u with
      | nil =>
        injection h2 with _ h2
        cases ts' with
        | nil => exact ha
        | cons c ts' =>
          exfalso
          rw [enc_cons] at h2
          have h3 := congrArg List.length h2
          have h4 := List.length_pos_iff.2 (enc1_ne c)
          rw [List.length_append, List.length_nil] at h3
          omega
      | cons c u =>
        injection h2 with _ h2
        exact absurd (by rw [← h2]; simp) (nobos hts.1)
    · intro h
      cases hr : ts.reverse with
      | nil => rw [hr] at h; cases h
      | cons a ts' =>
        rw [hr] at h
        cases ts' with
        | nil =>
          have : ts = [a] := by simpa using congrArg List.reverse hr
          subst this
          exact ⟨[], bos :: enc1 a, by simp [enc], [bos], enc1 a, rfl, (bow_iff (by decide)).2 rfl,
            by rw [trUnion_eq]; exact ⟨a, h, rfl⟩⟩
        | cons b ts' => cases h
  | _ => cases hP

theorem right_iff {F : Con} (hF : okR F = true) (L : Lang) {ts : List Tok} (hts : Good ts) :
    (ctxOf L F.r).right (enc ts) ↔ rCtx F ts = true := by
  have h61 := no61' hts
  have hn := refs_ok
  simp only [Bool.and_eq_true] at hn
  obtain ⟨⟨⟨⟨n1, n2⟩, n3⟩, n4⟩, n5⟩ := hn
  have hstr : ∀ {s : Str} {a : Tok}, seq s (enc1 a) = true → str s = symL fun b => teq b a = true := by
    intro s a h
    rw [seq_eq.1 h]
    funext x
    apply propext
    constructor
    · intro hx; exact ⟨a, teq_iff.2 rfl, hx⟩
    · rintro ⟨b, hb, rfl⟩; rw [teq_iff.1 hb]; rfl
  have halt : ∀ A B : Tok → Prop, alt (symL A) (symL B) = symL fun a => A a ∨ B a := by
    intro A B
    funext x
    apply propext
    constructor
    · rintro (⟨a, h, rfl⟩ | ⟨a, h, rfl⟩)
      exacts [⟨a, .inl h, rfl⟩, ⟨a, .inr h, rfl⟩]
    · rintro ⟨a, h | h, rfl⟩
      exacts [.inl ⟨a, h, rfl⟩, .inr ⟨a, h, rfl⟩]
  have gb : Good1 (.g a!"b") ∧ Good1 (.g a!"p") ∧ Good1 (.g a!"n") ∧ Good1 (.g a!"m") ∧
    Good1 (.t a!"vir") := ⟨good_g (by decide), good_g (by decide), good_g (by decide),
      good_g (by decide), good_t (by decide)⟩
  have triv : startsIn (str []) (enc ts ++ [eos]) := ⟨[], enc ts ++ [eos], by simp, rfl⟩
  change startsIn F.r (enc ts ++ [eos]) ↔ _
  have simp1 : ∀ {A : Tok → Prop} {F : Con}, (∀ a, A a → Good1 a) → F.r = cat SKIP (symL A) →
      (∀ a ts', rCtx F (a :: ts') = true ↔ A a) → rCtx F [] = false →
      (startsIn F.r (enc ts ++ [eos]) ↔ rCtx F ts = true) := by
    intro A F hA he h1 h2
    rw [he, startsIn_skip h61, starts_sym hA hts]
    constructor
    · rintro ⟨a, ts', rfl, ha⟩; exact (h1 a ts').2 ha
    · intro h
      cases ts with
      | nil => rw [h2] at h; cases h
      | cons a ts' => exact ⟨a, ts', rfl, (h1 a ts').1 h⟩
  cases F with
  | eps => exact ⟨fun _ => rfl, fun _ => triv⟩
  | nul => exact ⟨fun _ => rfl, fun _ => (startsIn_skip h61).2 triv⟩
  | vowel =>
    exact simp1 (A := fun a => isG Ltn.ASCII_VOWEL a = true) (fun a => good_vow)
      (by rw [← grUnion_eq]; rfl) (fun a ts' => Iff.rfl) rfl
  | bp =>
    refine simp1 (A := fun a => teq a (.g a!"b") = true ∨ teq a (.g a!"p") = true) ?_ ?_ ?_ rfl
    · rintro a (h | h) <;> rw [teq_iff.1 h]
      exacts [gb.1, gb.2.1]
    · rw [← halt, ← hstr n1, ← hstr n2]; rfl
    · intro a ts'; rw [rCtx, Bool.or_eq_true]
  | onset =>
    exact simp1 (A := fun a => isT Brh.ONSET_CONSONANT a = true) (fun a => good_onset)
      (by rw [← trUnion_eq]; rfl) (fun a ts' => Iff.rfl) rfl
  | vowelSVir =>
    refine simp1 (A := fun a => isT Brh.VOWEL_SIGN a = true ∨ teq a (.t a!"vir") = true) ?_ ?_ ?_ rfl
    · rintro a (h | h)
      exacts [good_vs h, teq_iff.1 h ▸ gb.2.2.2.2]
    · rw [← halt, ← hstr n5, ← trUnion_eq]; rfl
    · intro a ts'; rw [rCtx, Bool.or_eq_true]
  | eow =>
    rw [show Con.r .eow = cat SKIP EOW from rfl, startsIn_skip h61]
    constructor
    · rintro ⟨u, p, h, he⟩
      rw [starts_eow hts h61 ⟨p, h, he⟩]; rfl
    · intro h
      cases ts with
      | nil => exact ⟨[eos], [], rfl, (eow_iff (by decide)).2 rfl⟩
      | cons a ts => cases h
  | consNm =>
    have hm : minus (grUnion Ltn.ASCII_CONS) (alt (str (ltn a!"N")) (str (ltn a!"M"))) =
        symL fun a => isG Ltn.ASCII_CONS a = true ∧ ¬ (teq a (.g a!"n") = true ∨ teq a (.g a!"m") = true) := by
      rw [hstr n3, hstr n4, halt, grUnion_eq]
      funext x
      apply propext
      constructor
      · rintro ⟨⟨a, ha, rfl⟩, h⟩
        exact ⟨a, ⟨ha, fun hc => h ⟨a, hc, rfl⟩⟩, rfl⟩
      · rintro ⟨a, ⟨ha, h⟩, rfl⟩
        refine ⟨⟨a, ha, rfl⟩, ?_⟩
        rintro ⟨b, hb, he⟩
        have hgb : b.plain := by
          rcases hb with hb | hb <;> rw [teq_iff.1 hb] <;> decide
        have := (enc1_inj (x := []) (y := []) (good_con ha).1 hgb (by rw [he])).1
        subst this
        exact h hb
    rw [show Con.r .consNm = cat SKIP (alt (minus (grUnion Ltn.ASCII_CONS)
      (alt (str (ltn a!"N")) (str (ltn a!"M")))) EOW) from rfl, startsIn_skip h61, hm]
    have key := starts_sym (A := fun a => isG Ltn.ASCII_CONS a = true ∧
      ¬ (teq a (.g a!"n") = true ∨ teq a (.g a!"m") = true)) (fun a h => good_con h.1) hts
    constructor
    · rintro ⟨u, p, h, he | he⟩
      · obtain ⟨a, ts', rfl, h1, h2⟩ := key.1 ⟨u, p, h, he⟩
        rw [rCtx, Bool.and_eq_true, Bool.not_eq_true', ← Bool.not_eq_true, Bool.or_eq_true]
        exact ⟨h1, h2⟩
      · rw [starts_eow hts h61 ⟨p, h, he⟩]; rfl
    · intro h
      cases ts with
      | nil => exact ⟨[eos], [], rfl, .inr ((eow_iff (by decide)).2 rfl)⟩
      | cons a ts =>
        rw [rCtx, Bool.and_eq_true, Bool.not_eq_true', ← Bool.not_eq_true, Bool.or_eq_true] at h
        obtain ⟨u, p, h1, h2⟩ := key.2 ⟨a, ts, rfl, h⟩
        exact ⟨u, p, h1, .inl h2⟩
  | onsetEow =>
    rw [show Con.r .onsetEow = cat SKIP (cat (trUnion Brh.ONSET_CONSONANT) EOW) from rfl,
      startsIn_skip h61, trUnion_eq]
    constructor
    · rintro ⟨u, p, h, x, y, rfl, ⟨a, ha, rfl⟩, hy⟩
      rw [List.append_assoc] at h
      obtain ⟨ts', rfl, h2⟩ := enc_prefix1 hts (good_onset ha) h
      rw [good_cons] at hts
      rw [starts_eow hts.2 (no61' hts.2) ⟨p, h2.symm, hy⟩]
      exact ha
    · intro h
      cases ts with
      | nil => cases h
      | cons a ts =>
        cases ts with
        | nil =>
          exact ⟨enc1 a ++ [eos], [], by simp [enc], enc1 a, [eos], rfl, ⟨a, h, rfl⟩,
            (eow_iff (by decide)).2 rfl⟩
        | cons b ts => cases h
  | _ => cases hF

/-! ## One rule -/

/-- The text after the start of a symbol does not start with a symbol. -/
theorem mid_no {b : Tok} {rest lt : List Tok} (hb : Good1 b) (hr : Good rest) (hlt : Good lt)
    (hne : lt ≠ []) {p s x : Str} (hp : p ≠ []) (hs : s ≠ []) (hps : enc1 b = p ++ s)
    (h : s ++ enc rest = enc lt ++ x) : False := by
  obtain ⟨a, lt, rfl⟩ := List.exists_cons_of_ne_nil hne
  rw [good_cons] at hlt
  obtain ⟨o, n, k, he, hn, h3, h4⟩ := hlt.1.enc
  obtain ⟨o', n', k', he', hn', h3', h4'⟩ := hb.enc
  obtain ⟨c, p, rfl⟩ := List.exists_cons_of_ne_nil hp
  obtain ⟨d, s, rfl⟩ := List.exists_cons_of_ne_nil hs
  rw [he'] at hps
  injection hps with h1 hps
  rw [enc_cons, he] at h
  injection h with h5 h6
  subst h5
  have hd : nameChar d = false := by rcases h4 with h | h <;> rw [h.1] <;> rfl
  cases s with
  | cons e s =>
    have : d ∈ n' := by
      have h7 : n' ++ [k'] = (p ++ [d]) ++ (e :: s) := by rw [hps]; simp
      rcases List.append_eq_append_iff.1 h7 with ⟨y, h8, h9⟩ | ⟨y, h8, h9⟩
      · have := congrArg List.length h9
        have h10 : y = [] := by
          cases y with
          | nil => rfl
          | cons _ _ => simp at this
        subst h10
        rw [List.append_nil] at h8
        rw [← h8]; simp
      · rw [h8]; simp
    rw [h3' d this] at hd
    cases hd
  | nil =>
    obtain ⟨f, n, rfl⟩ := List.exists_cons_of_ne_nil hn
    have hf := nameChar_lt (h3 f (by simp))
    cases rest with
    | nil => simp [enc_nil] at h6
    | cons r rest =>
      rw [good_cons] at hr
      obtain ⟨o2, n2, k2, he2, _, _, h42⟩ := hr.1.enc
      rw [enc_cons, he2] at h6
      injection h6 with h6 _
      omega

/-- Copying the rest of a symbol. -/
theorem copy_mid {τ : Rel} {C : Cx Nat} {b : Tok} {rest : List Tok} {y : Str} (out : Str)
    (hno : ∀ p s, p ≠ [] → s ≠ [] → enc1 b = p ++ s → ∀ l r rest', τ l r → s ++ enc rest = l ++ rest' →
      C.left (out ++ p) → ¬ C.right rest')
    (k : Cdr τ C (out ++ enc1 b) (enc rest) y) (p s : Str) (hp : p ≠ []) (hps : enc1 b = p ++ s) :
    Cdr τ C (out ++ p) (s ++ enc rest) y := by
  induction s generalizing p with
  | nil => rw [hps, List.append_nil] at k; exact k
  | cons c s ih =>
    refine .copy (fun l r rest' h he => ?_) ?_
    · exact hno p (c :: s) hp (by simp) hps l r rest' h (by rw [← he]; rfl)
    · have := ih (p ++ [c]) (by simp) (by rw [hps]; simp)
      rwa [← List.append_assoc] at this

/-- Rules on sequences of symbols. -/
structure Ctxs (C : Cx Nat) (P F : Con) : Prop where
  left : ∀ {ts : List Tok}, Good ts → (C.left (enc ts) ↔ lCtx P ts.reverse = true)
  right : ∀ {ts : List Tok}, Good ts → (C.right (enc ts) ↔ rCtx F ts = true)

theorem pick_some {P F : Con} {rev rest rest' r : List Tok} {rs : List (List Tok × List Tok)}
    (h : pick P F rev rest rs = some (rest', r)) :
    ∃ l, (l, r) ∈ rs ∧ rest = l ++ rest' ∧ lCtx P rev = true ∧ rCtx F rest' = true := by
  induction rs with
  | nil => cases h
  | cons e rs ih =>
    obtain ⟨l, r0⟩ := e
    rw [pick] at h
    cases ht : tdrop l rest with
    | none =>
      simp only [ht] at h
      obtain ⟨l', h1, h2⟩ := ih h
      exact ⟨l', by simp [h1], h2⟩
    | some x =>
      simp only [ht, cond_eq_ite] at h
      split at h
      · rename_i hc
        rw [Bool.and_eq_true] at hc
        injection h with h
        injection h with h1 h2
        subst h1; subst h2
        exact ⟨l, by simp, tdrop_iff.1 ht, hc⟩
      · obtain ⟨l', h1, h2⟩ := ih h
        exact ⟨l', by simp [h1], h2⟩

theorem pick_none {P F : Con} {rev rest : List Tok} {rs : List (List Tok × List Tok)}
    (h : pick P F rev rest rs = none) {l r rest' : List Tok} (hm : (l, r) ∈ rs)
    (he : rest = l ++ rest') (hl : lCtx P rev = true) : ¬ rCtx F rest' = true := by
  induction rs with
  | nil => cases hm
  | cons e rs ih =>
    obtain ⟨l0, r0⟩ := e
    rw [pick] at h
    cases ht : tdrop l0 rest with
    | none =>
      simp only [ht] at h
      rcases List.mem_cons.1 hm with h1 | h1
      · injection h1 with h1 _
        subst h1
        rw [tdrop_iff.2 he] at ht
        cases ht
      · exact ih h h1
    | some x =>
      simp only [ht, cond_eq_ite] at h
      split at h
      · cases h
      · rename_i hc
        rcases List.mem_cons.1 hm with h1 | h1
        · injection h1 with h1 _
          subst h1
          rw [tdrop_iff.2 he] at ht
          injection ht with ht
          subst ht
          intro hr
          exact hc (by rw [hl, hr]; rfl)
        · exact ih h h1

/-- Pairs of sequences for pairs of strings. -/
structure Rules (fl : List (Str × Str)) (rs : List (List Tok × List Tok)) : Prop where
  good : ∀ l r, (l, r) ∈ rs → Good l ∧ Good r
  to : ∀ l r, (l, r) ∈ rs → (enc l, enc r) ∈ fl
  of : ∀ l r, (l, r) ∈ fl → ∃ lt rt, (lt, rt) ∈ rs ∧ l = enc lt ∧ r = enc rt

theorem go_good {rs : List (List Tok × List Tok)} {P F : Con} (hrs : ∀ l r, (l, r) ∈ rs → Good l ∧ Good r)
    {n : Nat} {rev rest : List Tok} (h1 : Good rev) (h2 : Good rest) : Good (go rs P F n rev rest) := by
  induction n generalizing rev rest with
  | zero =>
    cases rest with
    | nil => exact good_reverse.2 h1
    | cons a rest => exact good_append.2 ⟨good_reverse.2 h1, h2⟩
  | succ n ih =>
    cases rest with
    | nil => exact good_reverse.2 h1
    | cons a rest =>
      rw [go]
      cases hp : pick P F rev (a :: rest) rs with
      | none =>
        rw [good_cons] at h2
        exact ih (good_cons.2 ⟨h2.1, h1⟩) h2.2
      | some q =>
        obtain ⟨rest', r⟩ := q
        obtain ⟨l, hm, he, _, _⟩ := pick_some hp
        rw [he, good_append] at h2
        exact ih (good_append.2 ⟨good_reverse.2 (hrs l r hm).2, h1⟩) h2.2

theorem goIns_good {r : List Tok} {P F : Con} (hr : Good r) {rev rest : List Tok} (h1 : Good rev)
    (h2 : Good rest) : Good (goIns r P F rev rest) := by
  have h3 : Good (r.reverse ++ rev) := good_append.2 ⟨good_reverse.2 hr, h1⟩
  induction rest generalizing rev with
  | nil =>
    rw [goIns]
    cases (lCtx P rev && rCtx F [])
    · exact good_reverse.2 h1
    · exact good_reverse.2 h3
  | cons a rest ih =>
    rw [good_cons] at h2
    rw [goIns]
    cases (lCtx P rev && rCtx F (a :: rest))
    · have h4 : Good (a :: rev) := good_cons.2 ⟨h2.1, h1⟩
      exact ih h4 h2.2 (good_append.2 ⟨good_reverse.2 hr, h4⟩)
    · have h4 : Good (a :: (r.reverse ++ rev)) := good_cons.2 ⟨h2.1, h3⟩
      exact ih h4 h2.2 (good_append.2 ⟨good_reverse.2 hr, h4⟩)

theorem go_cdr {fl : List (Str × Str)} {rs : List (List Tok × List Tok)} {C : Cx Nat} {P F : Con}
    (hR : Rules fl rs) (hC : Ctxs C P F) (hne : ∀ l r, (l, r) ∈ rs → l ≠ []) {n : Nat}
    {rev rest : List Tok} (hn : rest.length ≤ n) (h1 : Good rev) (h2 : Good rest) :
    Cdr (rules fl) C (enc rev.reverse) (enc rest) (enc (go rs P F n rev rest)) := by
  have hdone : ∀ {rev : List Tok}, Cdr (rules fl) C (enc rev.reverse) (enc []) (enc rev.reverse) := by
    intro rev
    refine .done fun r hr => ?_
    obtain ⟨lt, rt, hm, h3, _⟩ := hR.of _ _ hr
    exfalso
    obtain ⟨a, lt, rfl⟩ := List.exists_cons_of_ne_nil (hne _ _ hm)
    have := congrArg List.length h3
    have := List.length_pos_iff.2 (enc1_ne a)
    simp [enc_cons] at *
    omega
  induction n generalizing rev rest with
  | zero =>
    cases rest with
    | nil => exact hdone
    | cons a rest => simp at hn
  | succ n ih =>
    cases rest with
    | nil => exact hdone
    | cons a rest =>
      rw [go]
      have hl : C.left (enc rev.reverse) ↔ lCtx P rev = true := by
        rw [hC.left (good_reverse.2 h1), List.reverse_reverse]
      cases hp : pick P F rev (a :: rest) rs with
      | some q =>
        obtain ⟨rest', r⟩ := q
        obtain ⟨l, hm, he, hl', hr'⟩ := pick_some hp
        have hne' := hne l r hm
        rw [he] at h2 hn ⊢
        rw [good_append] at h2
        have hlen := List.length_pos_iff.2 hne'
        rw [List.length_append] at hn
        rw [enc_append]
        refine .apply (hR.to _ _ hm) ?_ (hl.2 hl') ((hC.right h2.2).2 hr') ?_
        · obtain ⟨b, l, rfl⟩ := List.exists_cons_of_ne_nil hne'
          rw [enc_cons]
          intro h
          exact enc1_ne b (List.append_eq_nil_iff.1 h).1
        · have := ih (rev := r.reverse ++ rev) (rest := rest') (by omega)
            (good_append.2 ⟨good_reverse.2 (hR.good _ _ hm).2, h1⟩) h2.2
          rw [List.reverse_append, List.reverse_reverse, enc_append] at this
          exact this
      | none =>
        rw [good_cons] at h2
        have k := ih (rev := a :: rev) (rest := rest) (by simpa using hn) (good_cons.2 ⟨h2.1, h1⟩) h2.2
        rw [List.reverse_cons, enc_append, show enc [a] = enc1 a by simp [enc]] at k
        obtain ⟨o, n', k', he, _⟩ := h2.1.enc
        have hmid := copy_mid (enc rev.reverse) (b := a) (rest := rest) (τ := rules fl) (C := C) (by
          intro p s hp hs hps l r rest' hm heq
          obtain ⟨lt, rt, hm2, rfl, rfl⟩ := hR.of _ _ hm
          exact (mid_no h2.1 h2.2 (hR.good _ _ hm2).1 (hne _ _ hm2) hp hs hps heq).elim) k
          [o] (n' ++ [k']) (by simp) (by rw [he]; rfl)
        rw [enc_cons, he]
        refine .copy (fun l r rest' hm heq hL => ?_) hmid
        obtain ⟨lt, rt, hm2, rfl, rfl⟩ := hR.of _ _ hm
        have heq' : enc (a :: rest) = enc lt ++ rest' := by rw [enc_cons, he, ← heq]; rfl
        obtain ⟨vt, h3, rfl⟩ := enc_prefix (good_cons.2 h2).plain (hR.good _ _ hm2).1.plain heq'
        have hg : Good vt := by
          have := good_cons.2 h2
          rw [h3, good_append] at this
          exact this.2
        rw [hC.right hg]
        exact pick_none hp hm2 h3 (hl.1 hL)

theorem goIns_cdr {r : List Tok} {C : Cx Nat} {P F : Con} (hC : Ctxs C P F)
    (hmid : ∀ (ts : List Tok) (b : Tok) (p s : Str), Good ts → Good1 b → p ≠ [] → s ≠ [] → enc1 b = p ++ s →
      ¬ C.left (enc ts ++ p)) (hr : Good r) {rev rest : List Tok} (h1 : Good rev) (h2 : Good rest) :
    Cdr (rules [([], enc r)]) C (enc rev.reverse) (enc rest) (enc (goIns r P F rev rest)) := by
  have hr1 : ∀ {l x : Str}, rules [([], enc r)] l x ↔ l = [] ∧ x = enc r := by
    intro l x; simp [rules]
  induction rest generalizing rev with
  | nil =>
    have hl : C.left (enc rev.reverse) ↔ lCtx P rev = true := by
      rw [hC.left (good_reverse.2 h1), List.reverse_reverse]
    rw [goIns]
    cases hc : (lCtx P rev && rCtx F [])
    · refine .done fun x hx hL hR => ?_
      rw [hl.1 hL, (hC.right good_nil).1 hR] at hc
      cases hc
    · rw [Bool.and_eq_true] at hc
      rw [show (bif true then (r.reverse ++ rev).reverse else rev.reverse) = rev.reverse ++ r by simp,
        enc_append]
      exact .insEnd (hr1.2 ⟨rfl, rfl⟩) (hl.2 hc.1) ((hC.right good_nil).2 hc.2)
  | cons a rest ih =>
    have hl : C.left (enc rev.reverse) ↔ lCtx P rev = true := by
      rw [hC.left (good_reverse.2 h1), List.reverse_reverse]
    have hg := h2
    rw [good_cons] at h2
    obtain ⟨o, n', k', he, _⟩ := h2.1.enc
    rw [goIns]
    cases hc : (lCtx P rev && rCtx F (a :: rest))
    · have h4 : Good (a :: rev) := good_cons.2 ⟨h2.1, h1⟩
      have k := ih h4 h2.2
      rw [List.reverse_cons, enc_append, show enc [a] = enc1 a by simp [enc]] at k
      have hm := copy_mid (enc rev.reverse) (b := a) (rest := rest) (by
          intro p s hp hs hps l r rest' _ heq hL
          exact absurd hL (hmid _ a p s (good_reverse.2 h1) h2.1 hp hs hps)) k
          [o] (n' ++ [k']) (by simp) (by rw [he]; rfl)
      rw [enc_cons, he]
      refine .copy (fun l x rest' hx heq hL hR => ?_) hm
      rw [hr1] at hx
      rw [hx.1, List.nil_append] at heq
      rw [hl.1 hL] at hc
      have : C.right (enc (a :: rest)) := by rw [enc_cons, he]; rw [← heq] at hR; exact hR
      rw [(hC.right hg).1 this] at hc
      cases hc
    · rw [Bool.and_eq_true] at hc
      have h4 : Good (a :: (r.reverse ++ rev)) :=
        good_cons.2 ⟨h2.1, good_append.2 ⟨good_reverse.2 hr, h1⟩⟩
      have h5 : Good (rev.reverse ++ r) := good_append.2 ⟨good_reverse.2 h1, hr⟩
      have k := ih h4 h2.2
      rw [List.reverse_cons, List.reverse_append, List.reverse_reverse, enc_append,
        show enc [a] = enc1 a by simp [enc]] at k
      have hm := copy_mid (enc (rev.reverse ++ r)) (b := a) (rest := rest) (by
          intro p s hp hs hps l r rest' _ heq hL
          exact absurd hL (hmid _ a p s h5 h2.1 hp hs hps)) k
          [o] (n' ++ [k']) (by simp) (by rw [he]; rfl)
      rw [enc_append] at hm
      have hR := (hC.right hg).2 hc.2
      rw [enc_cons, he] at hR ⊢
      exact .ins (hr1.2 ⟨rfl, rfl⟩) (hl.2 hc.1) hR hm

/-! ## Rules of the model -/

/-- Decision of the side conditions: either an insertion after a letter or rules whose left sides are
not prefixes of each other. -/
def goodB (ts : List Tok) : Bool := ts.all fun a => match a with
  | .g s => nameOk s
  | .t s => nameOk s
  | _ => false

theorem goodB_iff {ts : List Tok} : goodB ts = true ↔ Good ts := by
  rw [goodB, List.all_eq_true]
  constructor
  · intro h a ha
    have := h a ha
    cases a with
    | g s => exact good_g this
    | t s => exact good_t this
    | _ => cases this
  · intro h a ha
    obtain ⟨h1, h2, ⟨s, rfl⟩ | ⟨s, rfl⟩⟩ := h a ha <;>
    · simp only [nameOk, Bool.and_eq_true, Bool.not_eq_true', List.isEmpty_eq_false_iff]
      exact ⟨nameB_iff.2 h1, h2⟩

def Rw.ok (w : Rw) : Bool :=
  okL w.preceding && okR w.following &&
  (w.flat.all fun p => match toks p.1, toks p.2 with
    | some l, some r => goodB l && goodB r && seq (enc l) p.1 && seq (enc r) p.2
    | _, _ => false) &&
  match w.tok with
  | [([], _)] => (match w.preceding with | .schCons => true | .bowSch => true | _ => false)
  | _ => detCheck false w.flat

theorem Rw.rel_eq (w : Rw) : w.rel = cdrewrite (rules w.flat) w.preceding.l w.following.r := by
  have : unionR ((w.ls.map fun p => ((fun x => x ∈ p.1 : Lang), (fun x => x ∈ p.2 : Lang))).map
      fun p => cross p.1 p.2) = rules w.flat := by
    funext x y
    apply propext
    constructor
    · rintro ⟨R, hR, hxy⟩
      simp only [List.map_map, List.mem_map, Function.comp] at hR
      obtain ⟨p, hp, rfl⟩ := hR
      exact List.mem_flatMap.2 ⟨p, hp, List.mem_flatMap.2 ⟨x, hxy.1, List.mem_map.2 ⟨y, hxy.2, rfl⟩⟩⟩
    · intro h
      obtain ⟨p, hp, h⟩ := List.mem_flatMap.1 h
      obtain ⟨x', hx, h⟩ := List.mem_flatMap.1 h
      obtain ⟨y', hy, h⟩ := List.mem_map.1 h
      injection h with h1 h2
      subst h1; subst h2
      exact ⟨_, List.mem_map.2 ⟨_, List.mem_map.2 ⟨p, hp, rfl⟩, rfl⟩, hx, hy⟩
  rw [Rw.rel, rewriteLs, this]
  rfl

theorem Rw.rules_of {w : Rw} (h : (w.flat.all fun p => match toks p.1, toks p.2 with
    | some l, some r => goodB l && goodB r && seq (enc l) p.1 && seq (enc r) p.2
    | _, _ => false) = true) : Rules w.flat w.tok := by
  have key : ∀ p ∈ w.flat, ∃ l r, toks p.1 = some l ∧ toks p.2 = some r ∧ Good l ∧ Good r ∧
      enc l = p.1 ∧ enc r = p.2 := by
    intro p hp
    have := List.all_eq_true.1 h p hp
    split at this
    · rename_i l r h1 h2
      simp only [Bool.and_eq_true] at this
      exact ⟨l, r, h1, h2, goodB_iff.1 this.1.1.1, goodB_iff.1 this.1.1.2, seq_eq.1 this.1.2, seq_eq.1 this.2⟩
    · cases this
  refine ⟨?_, ?_, ?_⟩
  · intro l r hm
    obtain ⟨p, hp, he⟩ := List.mem_map.1 hm
    obtain ⟨l', r', h1, h2, h3, h4, _⟩ := key p hp
    rw [h1, h2] at he
    injection he with e1 e2
    subst e1; subst e2
    exact ⟨h3, h4⟩
  · intro l r hm
    obtain ⟨p, hp, he⟩ := List.mem_map.1 hm
    obtain ⟨l', r', h1, h2, _, _, h5, h6⟩ := key p hp
    rw [h1, h2] at he
    injection he with e1 e2
    subst e1; subst e2
    change (enc l', enc r') ∈ _
    rw [h5, h6]
    exact hp
  · intro l r hm
    obtain ⟨l', r', h1, h2, _, _, h5, h6⟩ := key (l, r) hm
    exact ⟨l', r', List.mem_map.2 ⟨(l, r), hm, by rw [h1, h2]; rfl⟩, h5.symm, h6.symm⟩

theorem mid_left {P : Con} (hP : P = .schCons ∨ P = .bowSch) (R : Lang) (ts : List Tok) (b : Tok)
    (p s : Str) (hts : Good ts) (hb : Good1 b) (hp : p ≠ []) (hs : s ≠ []) (hps : enc1 b = p ++ s) :
    ¬ (ctxOf P.l R).left (enc ts ++ p) := by
  have h61 : 61 ∉ bos :: (enc ts ++ p) := by
    have := no61 (good_append.2 ⟨hts, good_cons.2 ⟨hb, good_nil⟩⟩)
    intro hc
    apply this
    rw [enc_append, show enc [b] = enc1 b by simp [enc], hps]
    simp only [List.mem_cons, List.mem_append] at hc ⊢
    tauto
  change ¬ endsIn P.l (bos :: (enc ts ++ p))
  rcases hP with rfl | rfl
  · rw [show Con.l .schCons = cat (trUnion Brh.SCHWA_BEARING) SKIP from rfl, endsIn_skip h61, trUnion_eq]
    rintro ⟨u, v, h, a, ha, rfl⟩
    exact enc_suffix_mid hts (good_sch ha) hb hp hs hps h
  · rw [show Con.l .bowSch = cat (cat BOW (trUnion Brh.SCHWA_BEARING)) SKIP from rfl, endsIn_skip h61,
      trUnion_eq]
    rintro ⟨u, v, h, q, x, rfl, _, a, ha, rfl⟩
    rw [← List.append_assoc] at h
    exact enc_suffix_mid hts (good_sch ha) hb hp hs hps h

/-- A rule is a function of sequences. -/
theorem Rw.rel_iff {w : Rw} (h : w.ok = true) {ts : List Tok} (hts : Good ts) (y : Str) :
    (w.rel (enc ts) y ↔ y = enc (w.run ts)) ∧ Good (w.run ts) := by
  rw [Rw.ok, Bool.and_eq_true, Bool.and_eq_true, Bool.and_eq_true] at h
  obtain ⟨⟨⟨hP, hF⟩, hfl⟩, hd⟩ := h
  have hR := w.rules_of hfl
  have hC : Ctxs (ctxOf w.preceding.l w.following.r) w.preceding w.following :=
    ⟨fun h => left_iff hP _ h, fun h => right_iff hF _ h⟩
  have main : Good (w.run ts) ∧ Cdr (rules w.flat) (ctxOf w.preceding.l w.following.r) [] (enc ts)
      (enc (w.run ts)) ∧ ∀ y z, Cdr (rules w.flat) (ctxOf w.preceding.l w.following.r) [] (enc ts) y →
        Over byteLabel y → Cdr (rules w.flat) (ctxOf w.preceding.l w.following.r) [] (enc ts) z →
        Over byteLabel z → y = z := by
    unfold Rw.run
    split at hd
    · rename_i r ht
      have hP' : w.preceding = .schCons ∨ w.preceding = .bowSch := by
        cases hp : w.preceding <;> rw [hp] at hd <;> first | exact .inl rfl | exact .inr rfl | cases hd
      have hg : Good r := (hR.good [] r (by rw [ht]; simp)).2
      have hflat : w.flat = [([], enc r)] := by
        have hl : w.flat.length = 1 := by
          have := congrArg List.length ht
          simpa [Rw.tok] using this
        obtain ⟨e, he⟩ := List.length_eq_one_iff.1 hl
        have := hR.to [] r (by rw [ht]; simp)
        rw [he] at this ⊢
        rw [← List.mem_singleton.1 this]
        rfl
      rw [hflat]
      have hc := goIns_cdr hC (fun ts b p s => mid_left hP' _ ts b p s) hg (rev := []) good_nil hts
      exact ⟨goIns_good hg good_nil hts, hc, fun y z hy _ hz _ => cdr_ins_det (r := enc r)
        (fun l x hx => by simpa [rules] using hx) hy hz⟩
    · rename_i hne
      have hne' : ∀ l r, (l, r) ∈ w.tok → l ≠ [] := by
        intro l r hm hl
        subst hl
        have h1 := List.all_eq_true.1 hd _ (hR.to _ _ hm)
        rw [Bool.and_eq_true] at h1
        simp [seq, enc_nil] at h1
      have hc := go_cdr hR hC hne' (rev := []) (Nat.le_refl _) good_nil hts
      refine ⟨go_good hR.good good_nil hts, hc, fun y z hy oy hz oz => ?_⟩
      exact det_of_check hd w.preceding.l w.following.r (fun h => by cases h) _ _ _
        ⟨enc_over hts.plain, oy, hy⟩ ⟨enc_over hts.plain, oz, hz⟩
  refine ⟨?_, main.1⟩
  rw [Rw.rel_eq]
  constructor
  · rintro ⟨_, h2, h3⟩
    exact main.2.2 _ _ h3 h2 main.2.1 (enc_over main.1.plain)
  · rintro rfl
    exact ⟨enc_over hts.plain, enc_over main.1.plain, main.2.1⟩

theorem runs_iff {ws : List Rw} (h : ws.all Rw.ok = true) {ts : List Tok} (hts : Good ts) (y : Str) :
    (compose (ws.map Rw.rel) (enc ts) y ↔ y = enc (runs ws ts)) ∧ Good (runs ws ts) := by
  induction ws generalizing ts with
  | nil =>
    refine ⟨?_, hts⟩
    constructor
    · intro h; exact h.symm
    · intro h; exact h.symm
  | cons w ws ih =>
    rw [List.all_cons, Bool.and_eq_true] at h
    have h1 := fun y => Rw.rel_iff h.1 hts y
    have h2 := ih h.2 (h1 []).2
    refine ⟨?_, h2.2⟩
    rw [List.map_cons, compose_cons]
    constructor
    · rintro ⟨u, hu, hy⟩
      rw [(h1 u).1] at hu
      subst hu
      exact h2.1.1 hy
    · intro hy
      exact ⟨_, ((h1 _).1).2 rfl, h2.1.2 hy⟩

section
set_option maxRecDepth 100000
theorem hi_ok : (typOps hi ++ typ2iso hi).all Rw.ok = true := by decide +kernel
theorem ta_ok : (typOps ta ++ typ2iso ta).all Rw.ok = true := by decide +kernel
end

end Derom
end Nisaba.NT
