import Verif.Lemmas.Wellformed
/-!
# Well-formedness of Brahmic text (C15, C16, C17)
-/
namespace Nisaba.Props
open Nisaba

/-! ## C15 -/

/-- C15: the empty text is well formed and well-formed texts can be concatenated. -/
theorem C15_concat (d : BrahmicData) :
    wellFormed d [] ∧ ∀ s t, wellFormed d s → wellFormed d t → wellFormed d (s ++ t) := by
  refine ⟨Lang.Star.nil, ?_⟩
  intro s t hs ht
  induction hs with
  | nil => exact ht
  | cons h _ ih => rw [List.append_assoc]; exact Lang.Star.cons h ih

/-! ## C16 -/

/-- `s` is the native spelling of an entry of a table. -/
def Listed (rows : List Rule) (s : Str) : Prop := ∃ r ∈ rows, s = r.1

/-- `s` is empty or a table entry. -/
def Optional (rows : List Rule) (s : Str) : Prop := s = [] ∨ Listed rows s

/-- Consonant clusters: consonants, each with an optional subjoined consonant, linked by a virama
or a preserved joiner sequence. -/
inductive ClusterSpec (d : BrahmicData) : Str → Prop
  | base (c sub : Str) : Listed d.consonant c → Optional d.subjoined sub → ClusterSpec d (c ++ sub)
  | link (c sub v rest : Str) : Listed d.consonant c → Optional d.subjoined sub →
      (Listed d.virama v ∨ Listed d.preserve v) → ClusterSpec d rest →
      ClusterSpec d (c ++ sub ++ v ++ rest)

/-- Orthographic syllables. -/
inductive AksharaSpec (d : BrahmicData) : Str → Prop
  | vowel (v len coda dead : Str) : Listed d.vowel v → Optional d.vowelLength len →
      Optional d.coda coda → Optional d.deadConsonant dead →
      AksharaSpec d (v ++ len ++ coda ++ dead)
  | syllable (cl sign len coda dead : Str) : ClusterSpec d cl → Optional d.vowelSign sign →
      (d.noInherentVowel = true → Listed d.vowelSign sign) → Optional d.vowelLength len →
      Optional d.coda coda → Optional d.deadConsonant dead →
      AksharaSpec d (cl ++ sign ++ len ++ coda ++ dead)
  | virama (cl v dead : Str) : ClusterSpec d cl → Listed d.virama v →
      Optional d.deadConsonant dead → AksharaSpec d (cl ++ v ++ dead)

/-- Texts: sequences of orthographic syllables, standalone signs and accepted exceptions. -/
def TextSpec (d : BrahmicData) (s : Str) : Prop :=
  ∃ pieces : List Str, s = pieces.flatten ∧
    ∀ p ∈ pieces, AksharaSpec d p ∨ Listed d.standalone p ∨ Listed d.accept p

theorem listed_iff (rows : List Rule) (s : Str) : inputLang rows s ↔ Listed rows s :=
  ⟨fun ⟨y, h⟩ => ⟨(s, y), h, rfl⟩, fun ⟨r, h, e⟩ => ⟨r.2, e ▸ h⟩⟩

theorem file_iff (rows : List Rule) (s : Str) :
    Lang.inputStringFile rows s ↔ Listed rows s := by
  rw [inputStringFile_eq, listed_iff]

theorem opt_iff (rows : List Rule) (s : Str) :
    Lang.quesSafe (Lang.inputStringFile rows) s ↔ Optional rows s := by
  rw [quesSafe_eq]; simp [Lang.ques, Optional, file_iff]

theorem opt_iff' (rows : List Rule) (s : Str) :
    Lang.ques (Lang.inputStringFile rows) s ↔ Optional rows s := by
  simp [Lang.ques, Optional, file_iff]

theorem consonant_spec (d : BrahmicData) (s : Str) :
    wfConsonant d s ↔ ∃ c sub, s = c ++ sub ∧ Listed d.consonant c ∧ Optional d.subjoined sub := by
  simp only [wfConsonant, Lang.cat, file_iff, opt_iff]

theorem cluster_spec (d : BrahmicData) (s : Str) : wfCluster d s ↔ ClusterSpec d s := by
  constructor
  · rintro ⟨x, y, rfl, hx, hy⟩
    rw [starSafe_eq] at hx
    obtain ⟨c, sub, rfl, hc, hs⟩ := (consonant_spec d y).1 hy
    induction hx with
    | nil => exact ClusterSpec.base c sub hc hs
    | @cons u v hu _ ih =>
      obtain ⟨u₁, u₂, rfl, h₁, h₂⟩ := hu
      obtain ⟨c', sub', rfl, hc', hs'⟩ := (consonant_spec d u₁).1 h₁
      have := ClusterSpec.link c' sub' u₂ _ hc' hs'
        (by simpa only [Lang.union, file_iff] using h₂) ih
      simpa only [List.append_assoc] using this
  · intro h
    induction h with
    | base c sub hc hs =>
      exact ⟨[], c ++ sub, rfl, Lang.Star.nil, (consonant_spec d _).2 ⟨c, sub, rfl, hc, hs⟩⟩
    | link c sub v rest hc hs hv _ ih =>
      obtain ⟨x, y, rfl, hx, hy⟩ := ih
      refine ⟨(c ++ sub ++ v) ++ x, y, by simp only [List.append_assoc], ?_, hy⟩
      rw [starSafe_eq] at hx ⊢
      refine Lang.Star.cons ⟨c ++ sub, v, rfl, (consonant_spec d _).2 ⟨c, sub, rfl, hc, hs⟩, ?_⟩ hx
      simpa only [Lang.union, file_iff] using hv

theorem tail_spec (d : BrahmicData) (s : Str) :
    Lang.cat (Lang.cat (Lang.quesSafe (Lang.inputStringFile d.vowelLength))
      (Lang.quesSafe (Lang.inputStringFile d.coda)))
      (Lang.quesSafe (Lang.inputStringFile d.deadConsonant)) s ↔
    ∃ len coda dead, s = len ++ coda ++ dead ∧ Optional d.vowelLength len ∧
      Optional d.coda coda ∧ Optional d.deadConsonant dead := by
  constructor
  · rintro ⟨_, dead, rfl, ⟨len, coda, rfl, h1, h2⟩, h3⟩
    exact ⟨len, coda, dead, rfl, (opt_iff _ _).1 h1, (opt_iff _ _).1 h2, (opt_iff _ _).1 h3⟩
  · rintro ⟨len, coda, dead, rfl, h1, h2, h3⟩
    exact ⟨_, dead, rfl, ⟨len, coda, rfl, (opt_iff _ _).2 h1, (opt_iff _ _).2 h2⟩,
      (opt_iff _ _).2 h3⟩

theorem withVowel_spec (d : BrahmicData) (s : Str) : wfClusterWithVowel d s ↔
    ∃ cl sign, s = cl ++ sign ∧ ClusterSpec d cl ∧ Optional d.vowelSign sign ∧
      (d.noInherentVowel = true → Listed d.vowelSign sign) := by
  unfold wfClusterWithVowel
  split
  · next h =>
    simp only [Lang.cat, cluster_spec, file_iff]
    constructor
    · rintro ⟨x, y, rfl, hx, hy⟩; exact ⟨x, y, rfl, hx, Or.inr hy, fun _ => hy⟩
    · rintro ⟨x, y, rfl, hx, _, hy⟩; exact ⟨x, y, rfl, hx, hy h⟩
  · next h =>
    simp only [Lang.cat, cluster_spec, opt_iff']
    constructor
    · rintro ⟨x, y, rfl, hx, hy⟩; exact ⟨x, y, rfl, hx, hy, fun e => absurd e h⟩
    · rintro ⟨x, y, rfl, hx, hy, _⟩; exact ⟨x, y, rfl, hx, hy⟩

theorem akshara_spec (d : BrahmicData) (s : Str) : wfAkshara d s ↔ AksharaSpec d s := by
  constructor
  · rintro (h | h)
    · obtain ⟨x, y, rfl, hx, hy⟩ := h
      obtain ⟨len, coda, dead, rfl, h1, h2, h3⟩ := (tail_spec d y).1 hy
      rcases hx with hx | hx
      · have := AksharaSpec.vowel x len coda dead ((file_iff _ _).1 hx) h1 h2 h3
        simpa only [List.append_assoc] using this
      · obtain ⟨cl, sign, rfl, hc, ho, hn⟩ := (withVowel_spec d x).1 hx
        have := AksharaSpec.syllable cl sign len coda dead hc ho hn h1 h2 h3
        simpa only [List.append_assoc] using this
    · obtain ⟨x, dead, rfl, ⟨cl, v, rfl, hc, hv⟩, hd⟩ := h
      exact AksharaSpec.virama cl v dead ((cluster_spec d cl).1 hc) ((file_iff _ _).1 hv)
        ((opt_iff _ _).1 hd)
  · intro h
    cases h with
    | vowel v len coda dead hv h1 h2 h3 =>
      left
      refine ⟨v, len ++ coda ++ dead, by simp only [List.append_assoc], Or.inl ((file_iff _ _).2 hv),
        (tail_spec d _).2 ⟨len, coda, dead, rfl, h1, h2, h3⟩⟩
    | syllable cl sign len coda dead hc ho hn h1 h2 h3 =>
      left
      refine ⟨cl ++ sign, len ++ coda ++ dead, by simp only [List.append_assoc],
        Or.inr ((withVowel_spec d _).2 ⟨cl, sign, rfl, hc, ho, hn⟩),
        (tail_spec d _).2 ⟨len, coda, dead, rfl, h1, h2, h3⟩⟩
    | virama cl v dead hc hv hd =>
      right
      exact ⟨cl ++ v, dead, rfl, ⟨cl, v, rfl, (cluster_spec d cl).2 hc, (file_iff _ _).2 hv⟩,
        (opt_iff _ _).2 hd⟩

/-- C16: the acceptor accepts exactly the sequences of orthographic syllables, standalone signs
and accepted exceptions. -/
theorem C16_grammar (d : BrahmicData) (s : Str) : wellFormed d s ↔ TextSpec d s := by
  rw [wellFormed, starSafe_eq]
  constructor
  · intro h
    induction h with
    | nil => exact ⟨[], rfl, by simp⟩
    | @cons x y hx _ ih =>
      obtain ⟨ps, rfl, hps⟩ := ih
      refine ⟨x :: ps, rfl, ?_⟩
      intro p hp
      rcases List.mem_cons.1 hp with rfl | hp
      · rcases hx with (hx | hx) | hx
        · exact Or.inl ((akshara_spec d p).1 hx)
        · exact Or.inr (Or.inl ((file_iff _ _).1 hx))
        · exact Or.inr (Or.inr ((file_iff _ _).1 hx))
      · exact hps p hp
  · rintro ⟨ps, rfl, hps⟩
    induction ps with
    | nil => exact Lang.Star.nil
    | cons p ps ih =>
      rw [List.flatten_cons]
      refine Lang.Star.cons ?_ (ih fun q hq => hps q (List.mem_cons_of_mem _ hq))
      rcases hps p (List.mem_cons_self ..) with h | h | h
      · exact Or.inl (Or.inl ((akshara_spec d p).2 h))
      · exact Or.inl (Or.inr ((file_iff _ _).2 h))
      · exact Or.inr ((file_iff _ _).2 h)

/-- C16: an automaton that reads the text once from left to right and remembers a fixed number of
bits accepts exactly the texts of the grammar. -/
theorem C16_finite_memory (d : BrahmicData) : ∃ (m : Nat) (start : List Bool)
    (step : List Bool → Nat → List Bool) (acc : List Bool → Bool), ∀ s : Str,
      (s.foldl step start).length = m ∧ (acc (s.foldl step start) = true ↔ TextSpec d s) := by
  obtain ⟨m, start, step, acc, h⟩ := re_dfa (reWellFormed d)
  refine ⟨m, start, step, acc, fun s => ⟨(h s).1, ?_⟩⟩
  rw [(h s).2, reWellFormed_eq, C16_grammar]

/-- C16: the partial-derivative recogniser, an executable left-to-right procedure, decides
well-formedness. -/
theorem C16_recogniser (d : BrahmicData) (s : Str) :
    RE.accepts (reWellFormed d) s = true ↔ wellFormed d s := by
  rw [RE.accepts_iff, reWellFormed_eq]

/-- Devanagari `kSii` (क्षी) is well formed, and `ii` sign alone is not. -/
example : wellFormed Data.deva [0x915, 0x94D, 0x937, 0x940] ∧ ¬ wellFormed Data.deva [0x940] := by
  rw [← C16_recogniser, ← C16_recogniser]
  decide +kernel

/-! ## C17 -/

/-- Dependent vowel sign written with one character. -/
def IsVowelSign (d : BrahmicData) (c : Nat) : Prop := Listed d.vowelSign [c]

/-- Virama written with one character. -/
def IsVirama (d : BrahmicData) (c : Nat) : Prop := Listed d.virama [c]

instance (rows : List Rule) (s : Str) : Decidable (Listed rows s) :=
  inferInstanceAs (Decidable (∃ r ∈ rows, s = r.1))

/-- Executable version of `Listed rows [c]`. -/
def listedB (rows : List Rule) (c : Nat) : Bool := rows.any fun r => r.1 == [c]

theorem listedB_iff (rows : List Rule) (c : Nat) : listedB rows c = true ↔ Listed rows [c] := by
  simp only [listedB, List.any_eq_true, beq_iff_eq, Listed]
  constructor
  · rintro ⟨r, h, e⟩; exact ⟨r, h, e.symm⟩
  · rintro ⟨r, h, e⟩; exact ⟨r, h, e.symm⟩

/-- Bad pair: a vowel sign followed by a vowel sign or a virama, not being listed together as a
single vowel sign. -/
def badPair (d : BrahmicData) (x y : Nat) : Bool :=
  listedB d.vowelSign x && (listedB d.vowelSign y || listedB d.virama y) &&
    !(d.vowelSign.any fun r => r.1 == [x, y])

/-- The pieces other than accepted exceptions. -/
def rePiece (d : BrahmicData) : RE := RE.alt (reAkshara d) (RE.ofRows d.standalone)

/-- Table check for C17. -/
def signsOk (d : BrahmicData) : Bool :=
  (RE.first (rePiece d)).all (fun c => !(listedB d.vowelSign c || listedB d.virama c)) &&
  RE.noPair (badPair d) (rePiece d)

theorem signsOk_all : Data.scripts.all signsOk = true := by decide +kernel

theorem wellFormed_star (d : BrahmicData) :
    wellFormed d = Lang.Star (Lang.union (RE.lang (rePiece d)) (inputLang d.accept)) := by
  rw [wellFormed, starSafe_eq]
  simp only [rePiece, RE.lang, reAkshara_eq, lang_ofRows, inputStringFile_eq]

/-- C17: a well-formed text starts with a dependent vowel sign or a virama only when it starts
with an accepted exception. -/
theorem C17_start (d : BrahmicData) (hd : d ∈ Data.scripts) (c : Nat) (t : Str)
    (h : wellFormed d (c :: t)) (hc : IsVowelSign d c ∨ IsVirama d c) :
    ∃ q, Listed d.accept (c :: q) ∧ q <+: t := by
  have ok := List.all_eq_true.1 signsOk_all d hd
  simp only [signsOk, Bool.and_eq_true] at ok
  rw [wellFormed_star] at h
  obtain ⟨q, hq, hp⟩ := star_first h
  rcases hq with hq | hq
  · have := List.all_eq_true.1 ok.1 c (RE.first_of _ _ _ hq)
    have hc' : (listedB d.vowelSign c || listedB d.virama c) = true := by
      simpa [listedB_iff, IsVowelSign, IsVirama] using hc
    rw [hc'] at this; cases this
  · exact ⟨q, (listed_iff _ _).1 hq, hp⟩

/-- C17: in a well-formed text a vowel sign is followed by another vowel sign or by a virama only
when the two are listed together as one vowel sign, or lie within an accepted exception, or an
accepted exception starts at the second one. -/
theorem C17_pair (d : BrahmicData) (hd : d ∈ Data.scripts) (a b : Str) (x y : Nat)
    (h : wellFormed d (a ++ x :: y :: b)) (hx : IsVowelSign d x)
    (hy : IsVowelSign d y ∨ IsVirama d y) :
    Listed d.vowelSign [x, y] ∨
    (∃ p q, Listed d.accept (p ++ x :: y :: q) ∧ p <:+ a ∧ q <+: b) ∨
    (∃ q, Listed d.accept (y :: q) ∧ q <+: b) := by
  have ok := List.all_eq_true.1 signsOk_all d hd
  simp only [signsOk, Bool.and_eq_true] at ok
  rw [wellFormed_star] at h
  have hy' : (listedB d.vowelSign y || listedB d.virama y) = true := by
    simpa [listedB_iff, IsVowelSign, IsVirama] using hy
  rcases star_pair h with ⟨p, q, hL, hp, hq⟩ | ⟨p, q, _, hL, hq⟩
  · rcases hL with hL | hL
    · have := RE.noPair_ok _ _ ok.2 p q x y hL
      simp only [badPair, (listedB_iff _ _).2 hx, hy', Bool.true_and, Bool.not_eq_false',
        List.any_eq_true, beq_iff_eq] at this
      obtain ⟨r, hr, e⟩ := this
      exact Or.inl ⟨r, hr, e.symm⟩
    · exact Or.inr (Or.inl ⟨p, q, (listed_iff _ _).1 hL, hp, hq⟩)
  · rcases hL with hL | hL
    · have := List.all_eq_true.1 ok.1 y (RE.first_of _ _ _ hL)
      rw [hy'] at this; cases this
    · exact Or.inr (Or.inr ⟨q, (listed_iff _ _).1 hL, hq⟩)

/-- C17 without exceptions: in every script but Malayalam and Sylheti no well-formed text starts
with a vowel sign or a virama, or has a vowel sign directly followed by a vowel sign or a
virama. -/
theorem C17_no_exceptions (d : BrahmicData) (hd : d ∈ Data.scripts)
    (h1 : d.name ≠ Data.mlym.name) (h2 : d.name ≠ Data.sylo.name) (s : Str)
    (h : wellFormed d s) :
    (∀ c t, s = c :: t → ¬ IsVowelSign d c ∧ ¬ IsVirama d c) ∧
    (∀ a b x y, s = a ++ x :: y :: b → IsVowelSign d x → ¬ IsVowelSign d y ∧ ¬ IsVirama d y) := by
  have tab : (Data.scripts.all fun d => d.name == Data.mlym.name || d.name == Data.sylo.name ||
      (d.accept.all (fun r => r.1.all fun c => !(listedB d.vowelSign c || listedB d.virama c)) &&
        d.vowelSign.all fun r => match r.1 with
          | [_, y] => !(listedB d.vowelSign y || listedB d.virama y)
          | _ => true)) = true := by decide +kernel
  have ok := List.all_eq_true.1 tab d hd
  simp only [Bool.or_eq_true, beq_iff_eq, h1, h2, Bool.and_eq_true, false_or] at ok
  have acc : ∀ e, Listed d.accept e → ∀ c ∈ e, ¬ (IsVowelSign d c ∨ IsVirama d c) := by
    rintro e ⟨r, hr, rfl⟩ c hc h
    have := List.all_eq_true.1 (List.all_eq_true.1 ok.1 r hr) c hc
    have h' : (listedB d.vowelSign c || listedB d.virama c) = true := by
      simpa [listedB_iff, IsVowelSign, IsVirama] using h
    rw [h'] at this; cases this
  refine ⟨?_, ?_⟩
  · rintro c t rfl
    rw [← not_or]
    intro hc
    obtain ⟨q, hq, _⟩ := C17_start d hd c t h hc
    exact acc _ hq c (by simp) hc
  · rintro a b x y rfl hx
    rw [← not_or]
    intro hy
    rcases C17_pair d hd a b x y h hx hy with ⟨r, hr, e⟩ | ⟨p, q, hl, _⟩ | ⟨q, hl, _⟩
    · have := List.all_eq_true.1 ok.2 r hr
      rw [← e] at this
      have h' : (listedB d.vowelSign y || listedB d.virama y) = true := by
        simpa [listedB_iff, IsVowelSign, IsVirama] using hy
      simp only [h'] at this; cases this
    · exact acc _ hl y (by simp) hy
    · exact acc _ hl y (by simp) hy

/-- `x` is the last character of a consonant or of a subjoined consonant. -/
def EndsConsonant (d : BrahmicData) (x : Nat) : Prop :=
  ∃ p, Listed d.consonant (p ++ [x]) ∨ Listed d.subjoined (p ++ [x])

/-- `x y` occurs inside one entry of the table. -/
def WithinRow (rows : List Rule) (x y : Nat) : Prop := ∃ p q, Listed rows (p ++ x :: y :: q)

/-- Does the pair occur in the string? -/
def pairIn (x y : Nat) : Str → Bool
  | a :: b :: t => (a == x && b == y) || pairIn x y (b :: t)
  | _ => false

theorem pairIn_ok (x y : Nat) (s : Str) (h : pairIn x y s = true) :
    ∃ p q, s = p ++ x :: y :: q := by
  induction s with
  | nil => cases h
  | cons a s ih => cases s with
    | nil => cases h
    | cons b t =>
      simp only [pairIn, Bool.or_eq_true, Bool.and_eq_true, beq_iff_eq] at h
      rcases h with ⟨rfl, rfl⟩ | h
      · exact ⟨[], t, rfl⟩
      · obtain ⟨p, q, e⟩ := ih h
        exact ⟨a :: p, q, by rw [e]; rfl⟩

/-- A vowel sign after something that is not the end of a consonant. -/
def strayPair (d : BrahmicData) (x y : Nat) : Bool :=
  listedB d.vowelSign y && !((d.consonant ++ d.subjoined).any fun r => RE.lastOf r.1 == [x]) &&
    !((d.vowel ++ d.vowelSign ++ d.consonant).any fun r => pairIn x y r.1)

theorem stray_all : (Data.scripts.all fun d => RE.noPair (strayPair d) (rePiece d)) = true := by
  decide +kernel

theorem lastOf_eq (s : Str) (x : Nat) (h : RE.lastOf s = [x]) : ∃ p, s = p ++ [x] := by
  induction s with
  | nil => cases h
  | cons a s ih => cases s with
    | nil => simp [RE.lastOf] at h; exact ⟨[], by simp [h]⟩
    | cons b t =>
      obtain ⟨p, e⟩ := ih h
      exact ⟨a :: p, by rw [e]; rfl⟩

/-- C17, positive form: in a well-formed text the character before a dependent vowel sign is the
end of a consonant, unless both lie within one table entry or an accepted exception starts at the
vowel sign. -/
theorem C17_sign_follows_consonant (d : BrahmicData) (hd : d ∈ Data.scripts) (a b : Str)
    (x y : Nat) (h : wellFormed d (a ++ x :: y :: b)) (hy : IsVowelSign d y) :
    EndsConsonant d x ∨
    WithinRow (d.vowel ++ d.vowelSign ++ d.consonant ++ d.accept) x y ∨
    (∃ q, Listed d.accept (y :: q) ∧ q <+: b) := by
  have ok := List.all_eq_true.1 signsOk_all d hd
  have st := List.all_eq_true.1 stray_all d hd
  simp only [signsOk, Bool.and_eq_true] at ok
  rw [wellFormed_star] at h
  rcases star_pair h with ⟨p, q, hL, hp, hq⟩ | ⟨p, q, _, hL, hq⟩
  · rcases hL with hL | hL
    · have := RE.noPair_ok _ _ st p q x y hL
      simp only [strayPair, (listedB_iff _ _).2 hy, Bool.true_and, Bool.and_eq_false_iff,
        Bool.not_eq_false', List.any_eq_true, beq_iff_eq] at this
      rcases this with ⟨r, hr, e⟩ | ⟨r, hr, e⟩
      · left
        obtain ⟨p, hp⟩ := lastOf_eq _ _ e
        rcases List.mem_append.1 hr with hr | hr
        · exact ⟨p, Or.inl ⟨r, hr, hp.symm⟩⟩
        · exact ⟨p, Or.inr ⟨r, hr, hp.symm⟩⟩
      · right; left
        obtain ⟨p, q, e⟩ := pairIn_ok _ _ _ e
        exact ⟨p, q, r, List.mem_append_left _ hr, e.symm⟩
    · right; left
      obtain ⟨r, hr, e⟩ := (listed_iff _ _).1 hL
      exact ⟨p, q, r, List.mem_append_right _ hr, e⟩
  · rcases hL with hL | hL
    · have := List.all_eq_true.1 ok.1 y (RE.first_of _ _ _ hL)
      rw [(listedB_iff _ _).2 hy] at this; cases this
    · exact Or.inr (Or.inr ⟨q, (listed_iff _ _).1 hL, hq⟩)

/-- The hypotheses of C17 are met: the Malayalam exception `0D41 0D4D` is well formed on its own
although it starts with a vowel sign followed by the virama. -/
example : wellFormed Data.mlym [0xD41, 0xD4D] ∧ IsVowelSign Data.mlym 0xD41 ∧
    IsVirama Data.mlym 0xD4D := by
  rw [← C16_recogniser]
  refine ⟨by decide +kernel, (listedB_iff _ _).1 (by decide +kernel),
    (listedB_iff _ _).1 (by decide +kernel)⟩

/-- Sylheti: the listed compound vowel sign is well formed after a consonant. -/
example : wellFormed Data.sylo [0xA807, 0xA823, 0xA802] ∧ Listed Data.sylo.vowelSign [0xA823, 0xA802] := by
  rw [← C16_recogniser]
  exact ⟨by decide +kernel, by decide +kernel⟩

end Nisaba.Props
