import Verif.Model.Acronym
import Verif.Lemmas.NtChain
import Verif.Lemmas.NtEval
import Verif.Lemmas.NtInsert
import Verif.Lemmas.Spellout
/-!
# Reading of acronyms
-/
namespace Nisaba.NT
namespace Acr

/-! ## Texts as sequences of alignments -/

/-- The alignments of a sequence of graphemes. -/
def X (B : Str → Str) (w : List Str) : Str := w.flatMap fun g => encloseGrapheme g ++ 61 :: B g

theorem X_nil (B : Str → Str) : X B [] = [] := rfl
theorem X_cons (B : Str → Str) (g : Str) (w : List Str) :
    X B (g :: w) = 60 :: (g ++ 62 :: 61 :: (B g ++ X B w)) := by
  simp [X, encloseGrapheme, LT, GT]
theorem X_append (B : Str → Str) (v w : List Str) : X B (v ++ w) = X B v ++ X B w := by
  simp [X]

/-- What is needed of a grapheme and its right side. -/
structure Good (B : Str → Str) (g : Str) : Prop where
  name : ∀ c ∈ g, nameChar c = true
  head : ∃ t, B g = 123 :: t
  chars : ∀ c ∈ B g, c ≠ 60 ∧ c ≠ 61 ∧ 0 < c ∧ c < 256
  syms : R_SYMS (B g)

variable {B : Str → Str}

theorem Good.no {g : Str} (h : Good B g) {d : Nat} (hd : nameChar d = false) : d ∉ g := by
  intro hm; rw [h.name d hm] at hd; cases hd

theorem X_over {w : List Str} (h : ∀ g ∈ w, Good B g) : Over byteLabel (X B w) := by
  induction w with
  | nil => intro c hc; cases hc
  | cons g w ih =>
    rw [X_cons]
    have hg := h g (by simp)
    intro c hc
    simp only [List.mem_cons, List.mem_append] at hc
    rcases hc with rfl | hc | rfl | rfl | hc | hc
    · decide
    · have := nameChar_lt (hg.name c hc); unfold byteLabel; omega
    · decide
    · decide
    · exact (hg.chars c hc).2.2
    · exact ih (fun g hm => h g (by simp [hm])) c hc

/-- A string that is empty or starts with a grapheme. -/
def St0 (x : Str) : Prop := x = [] ∨ ∃ t, x = 60 :: t

theorem X_st0 (w : List Str) : St0 (X B w) := by
  cases w with
  | nil => exact .inl rfl
  | cons g w => exact .inr ⟨_, X_cons ..⟩

theorem St0.append {x y : Str} (hx : St0 x) (hy : St0 y) : St0 (x ++ y) := by
  rcases hx with rfl | ⟨t, rfl⟩
  · exact hy
  · exact .inr ⟨_, rfl⟩

/-- Splitting at the next grapheme. -/
theorem split60 {s s' x y : Str} (hs : 60 ∉ s) (hs' : 60 ∉ s') (hx : St0 x) (hy : St0 y)
    (h : s ++ x = s' ++ y) : s = s' ∧ x = y := by
  rcases hx with rfl | ⟨x, rfl⟩ <;> rcases hy with rfl | ⟨y, rfl⟩
  · simpa using h
  · rw [List.append_nil] at h
    exact absurd (h ▸ by simp) hs
  · rw [List.append_nil] at h
    exact absurd (h ▸ by simp) hs'
  · obtain ⟨h1, h2⟩ := split_unique h hs hs'
    exact ⟨h1, by rw [h2]⟩

/-- The sign `=` is between a grapheme and a phoneme. -/
theorem X_eq61 {w : List Str} (h : ∀ g ∈ w, Good B g) {u v : Str} (he : X B w = u ++ 61 :: v) :
    (∃ u', u = u' ++ [62]) ∧ ∃ v', v = 123 :: v' := by
  induction w generalizing u with
  | nil => simp [X_nil] at he
  | cons g w ih =>
    have hg := h g (by simp)
    obtain ⟨t, ht⟩ := hg.head
    have hn : 61 ∉ 60 :: (g ++ [62]) := by
      have := hg.no (d := 61) rfl
      simp [this]
    have he' : (60 :: (g ++ [62])) ++ 61 :: (B g ++ X B w) = u ++ 61 :: v := by
      rw [← he, X_cons]; simp
    by_cases hu : 61 ∈ u
    · obtain ⟨u1, u2, rfl, h1⟩ := List.eq_append_cons_of_mem hu
      rw [List.append_assoc, List.cons_append] at he'
      obtain ⟨_, h2⟩ := split_unique he' hn h1
      have h3 : ∃ u3, u2 = B g ++ u3 ∧ X B w = u3 ++ 61 :: v := by
        rcases List.append_eq_append_iff.1 h2 with ⟨a, h4, h5⟩ | ⟨a, h4, h5⟩
        · exact ⟨a, h4, h5⟩
        · cases a with
          | nil => exact ⟨[], by simpa using h4.symm, by simpa using h5.symm⟩
          | cons d a =>
            injection h5 with h5 _
            exact absurd h5.symm (hg.chars d (h4 ▸ by simp)).2.1
      obtain ⟨u3, rfl, h4⟩ := h3
      obtain ⟨⟨u', rfl⟩, hv⟩ := ih (fun g hm => h g (by simp [hm])) h4
      exact ⟨⟨u1 ++ 61 :: (B g ++ u'), by simp⟩, hv⟩
    · obtain ⟨rfl, rfl⟩ := split_unique he' hn hu
      exact ⟨⟨60 :: g, rfl⟩, ⟨t ++ X B w, by rw [ht]; rfl⟩⟩

/-! ## Languages of the contexts -/

theorem rsyms_chars {s : Str} (h : R_SYMS s) : 60 ∉ s ∧ (s = [] ∨ ∃ u c, s = u ++ [c] ∧ c ≠ 62) := by
  induction h with
  | nil => exact ⟨by simp, .inl rfl⟩
  | @cons u v h k ih =>
    have hu : 60 ∉ u ∧ ∃ a c, u = a ++ [c] ∧ c ≠ 62 := by
      have key : ∀ (d e : Nat) (x : Str), d ≠ 60 → e ≠ 60 → e ≠ 62 → SYM x →
          60 ∉ d :: (x ++ [e]) ∧ ∃ a c, d :: (x ++ [e]) = a ++ [c] ∧ c ≠ 62 := by
        intro d e x hd he he2 hx
        refine ⟨?_, d :: x, e, rfl, he2⟩
        simp only [List.mem_cons, List.mem_append, List.not_mem_nil, or_false, not_or]
        refine ⟨fun h => hd h.symm, fun h => ?_, fun h => he h.symm⟩
        have := nameChar_lt (symChar_name (hx _ h))
        omega
      rcases h with ⟨_, _, rfl, rfl, x, _, rfl, hx, rfl⟩ | ⟨_, _, rfl, rfl, x, _, rfl, hx, rfl⟩
      · exact key _ _ x (by decide) (by decide) (by decide) hx
      · exact key _ _ x (by decide) (by decide) (by decide) hx
    obtain ⟨h1, a, c, rfl, hc⟩ := hu
    refine ⟨by simp only [List.mem_append, not_or] at h1 ⊢; exact ⟨h1, ih.1⟩, .inr ?_⟩
    rcases ih.2 with rfl | ⟨b, e, rfl, he⟩
    · exact ⟨a, c, by simp, hc⟩
    · exact ⟨a ++ [c] ++ b, e, by simp, he⟩

theorem skip_iff {k : Str} (h : SKIP k) : k = [] ∨ (∃ u, k = u ++ [61]) ∨ ∃ s, k = 61 :: s := by
  rcases h with (⟨u, _, rfl, _, rfl⟩ | rfl) | (⟨_, s, rfl, rfl, _⟩ | rfl)
  · exact .inr (.inl ⟨u, rfl⟩)
  · exact .inl rfl
  · exact .inr (.inr ⟨s, rfl⟩)
  · exact .inl rfl

theorem skip_nil : SKIP [] := .inl (.inr rfl)

theorem right_iff {L : Lang} {rest : Str} (hr : ∀ c ∈ rest, c < 256) :
    startsIn (cat SKIP (cat L (str [eos]))) (rest ++ [eos]) ↔ ∃ k q, rest = k ++ q ∧ SKIP k ∧ L q := by
  constructor
  · rintro ⟨_, v, he, k, _, rfl, hk, q, _, rfl, hq, rfl⟩
    refine ⟨k, q, ?_, hk, hq⟩
    rcases List.eq_nil_or_concat v with rfl | ⟨v', c, rfl⟩
    · rw [List.append_nil, ← List.append_assoc] at he
      exact List.append_inj_left' he rfl
    · exfalso
      rw [List.concat_eq_append, ← List.append_assoc] at he
      have := List.append_inj_left' he rfl
      have h1 : eos ∈ rest := this ▸ by simp
      exact absurd (hr _ h1) (by decide)
  · rintro ⟨k, q, rfl, hk, hq⟩
    exact ⟨_, [], by simp, k, _, rfl, hk, q, _, rfl, hq, rfl⟩

theorem left_iff {L : Lang} {out : Str} (ho : ∀ c ∈ out, c < 256) :
    endsIn (cat (cat (str [bos]) L) SKIP) (bos :: out) ↔ ∃ e k, out = e ++ k ∧ L e ∧ SKIP k := by
  constructor
  · rintro ⟨u, _, h, _, k, rfl, ⟨_, e, rfl, rfl, he⟩, hk⟩
    refine ⟨e, k, ?_, he, hk⟩
    cases u with
    | nil => simpa using h
    | cons a u =>
      exfalso
      injection h with _ h
      have h1 : bos ∈ out := h ▸ by simp
      exact absurd (ho _ h1) (by decide)
  · rintro ⟨e, k, rfl, he, hk⟩
    exact ⟨[], _, rfl, _, k, rfl, ⟨_, e, rfl, rfl, he⟩, hk⟩

/-! ## Letters -/

/-- The name of a grapheme. -/
def nm (a : Str) : Str := (byAlias Brh.CHAR a).typ

theorem gr_nm (a : Str) : gr a = str (encloseGrapheme (nm a)) := rfl

/-- `letter` from the right. -/
def lett : List (List Str) → Lang
  | [] => str []
  | o :: os => cat (align (oneOf (o.map gr)) R_SYMS) (lett os)

theorem cat_assoc (a b c : Lang) : cat (cat a b) c = cat a (cat b c) := by
  funext x
  apply propext
  constructor
  · rintro ⟨_, w, rfl, ⟨u, v, rfl, hu, hv⟩, hw⟩
    exact ⟨u, v ++ w, by simp, hu, v, w, rfl, hv, hw⟩
  · rintro ⟨u, _, rfl, hu, v, w, rfl, hv, hw⟩
    exact ⟨u ++ v, w, by simp, ⟨u, v, rfl, hu, hv⟩, hw⟩

theorem cat_nil (a : Lang) : cat (str []) a = a := by
  funext x
  apply propext
  constructor
  · rintro ⟨_, v, rfl, rfl, hv⟩; exact hv
  · intro h; exact ⟨[], x, rfl, rfl, h⟩

theorem cat_nil' (a : Lang) : cat a (str []) = a := by
  funext x
  apply propext
  constructor
  · rintro ⟨u, _, rfl, hu, rfl⟩; simpa using hu
  · intro h; exact ⟨x, [], by simp, h, rfl⟩

theorem letter_eq (gs : List (List Str)) : letter gs = lett gs := by
  have key : ∀ (a : Lang), gs.foldl (fun spelling g => cat spelling (align (oneOf (g.map gr)) R_SYMS)) a =
      cat a (lett gs) := by
    induction gs with
    | nil => intro a; exact (cat_nil' a).symm
    | cons g gs ih => intro a; rw [List.foldl_cons, ih, lett, cat_assoc]
  rw [letter, key, cat_nil]

theorem lett_cons {o : List Str} {os : List (List Str)} {l : Str} :
    lett (o :: os) l ↔ ∃ a ∈ o, ∃ s l', R_SYMS s ∧ lett os l' ∧
      l = 60 :: (nm a ++ 62 :: 61 :: (s ++ l')) := by
  constructor
  · rintro ⟨_, l', rfl, ⟨_, _, rfl, ⟨L, hL, hl⟩, _, s, rfl, rfl, hs⟩, hl'⟩
    obtain ⟨a, ha, rfl⟩ := List.mem_map.1 hL
    rw [gr_nm] at hl
    refine ⟨a, ha, s, l', hs, hl', ?_⟩
    rw [show _ = encloseGrapheme (nm a) from hl]
    simp [encloseGrapheme, LT, GT, EQ]
  · rintro ⟨a, ha, s, l', hs, hl', rfl⟩
    refine ⟨60 :: (nm a ++ 62 :: 61 :: s), l', by simp, ⟨60 :: (nm a ++ [62]), 61 :: s, by simp, ?_, [61], s, rfl, rfl, hs⟩, hl'⟩
    exact ⟨gr a, List.mem_map.2 ⟨a, ha, rfl⟩, rfl⟩

theorem lett_st0 {os : List (List Str)} {l : Str} (h : lett os l) : St0 l := by
  cases os with
  | nil => exact .inl h
  | cons o os =>
    obtain ⟨a, _, s, l', _, _, rfl⟩ := lett_cons.1 h
    exact .inr ⟨_, rfl⟩

theorem lett_last {os : List (List Str)} {l : Str} (h : lett os l) (hl : l ≠ []) :
    ∃ u c, l = u ++ [c] ∧ c ≠ 62 := by
  induction os generalizing l with
  | nil => exact absurd h hl
  | cons o os ih =>
    obtain ⟨a, _, s, l', hs, hl', rfl⟩ := lett_cons.1 h
    by_cases he : l' = []
    · subst he
      rcases (rsyms_chars hs).2 with rfl | ⟨u, c, rfl, hc⟩
      · exact ⟨60 :: (nm a ++ [62]), 61, by simp, by decide⟩
      · exact ⟨60 :: (nm a ++ 62 :: 61 :: u), c, by simp, hc⟩
    · obtain ⟨u, c, rfl, hc⟩ := ih hl' he
      exact ⟨60 :: (nm a ++ 62 :: 61 :: (s ++ u)), c, by simp, hc⟩

/-- A sequence of graphemes is one of the spellings of a letter. -/
inductive Mat : List (List Str) → List Str → Prop
  | nil : Mat [] []
  | cons {o : List Str} {os : List (List Str)} {a : Str} {w : List Str} (h : a ∈ o) (k : Mat os w) :
      Mat (o :: os) (nm a :: w)

set_option maxRecDepth 100000 in
theorem nm_plain : (acronymSet.all fun p => p.1.all fun o => o.all fun a => nameB (nm a)) = true := by
  decide +kernel

/-- Names of all alternatives are plain. -/
def OsPlain (os : List (List Str)) : Prop := ∀ o ∈ os, ∀ a ∈ o, ∀ c ∈ nm a, nameChar c = true

theorem set_plain {p : List (List Str) × Str} (h : p ∈ acronymSet) : OsPlain p.1 := fun o ho a ha =>
  nameB_iff.1 (List.all_eq_true.1 (List.all_eq_true.1 (List.all_eq_true.1 nm_plain p h) o ho) a ha)

theorem lett_split {os : List (List Str)} (hp : OsPlain os) {w : List Str} (hw : ∀ g ∈ w, Good B g)
    {l rest : Str} (hl : lett os l) (hr : St0 rest) (he : l ++ rest = X B w) :
    ∃ w1 w2, w = w1 ++ w2 ∧ l = X B w1 ∧ rest = X B w2 ∧ Mat os w1 := by
  induction os generalizing w l with
  | nil => rw [show l = [] from hl] at he ⊢; exact ⟨[], w, rfl, rfl, he, .nil⟩
  | cons o os ih =>
    obtain ⟨a, ha, s, l', hs, hl', rfl⟩ := lett_cons.1 hl
    cases w with
    | nil => simp [X_nil] at he
    | cons g w =>
      have hg := hw g (by simp)
      rw [X_cons, List.cons_append] at he
      injection he with _ he
      rw [List.append_assoc] at he
      simp only [List.cons_append] at he
      have hn : 62 ∉ nm a := fun hm => by
        have := hp o (by simp) a ha 62 hm; cases this
      obtain ⟨rfl, he⟩ := split_unique he hn (hg.no rfl)
      injection he with _ he
      rw [List.append_assoc] at he
      obtain ⟨hsB, he2⟩ := split60 (rsyms_chars hs).1 (fun hm => (hg.chars _ hm).1 rfl)
        ((lett_st0 hl').append hr) (X_st0 w) he
      subst hsB
      obtain ⟨w1, w2, rfl, rfl, rfl, hm⟩ := ih (fun o ho => hp o (by simp [ho]))
        (fun g hg => hw g (by simp [hg])) hl' he2
      exact ⟨nm a :: w1, w2, rfl, by rw [X_cons], rfl, .cons ha hm⟩

theorem lett_of {os : List (List Str)} {w : List Str} (h : Mat os w) (hw : ∀ g ∈ w, Good B g) :
    lett os (X B w) := by
  induction h with
  | nil => exact rfl
  | @cons o os a w ha _ ih =>
    rw [X_cons]
    exact lett_cons.2 ⟨a, ha, _, _, (hw _ (by simp)).syms, ih fun g hg => hw g (by simp [hg]), rfl⟩

theorem Mat.len {os : List (List Str)} {w : List Str} (h : Mat os w) : w.length = os.length := by
  induction h with
  | nil => rfl
  | cons _ _ ih => simp [ih]

/-! ## Decoding -/

/-- A sequence of graphemes is the spelling of a sequence of letters. -/
inductive Dec : List Str → Str → Prop
  | nil : Dec [] []
  | cons {os : List (List Str)} {c : Nat} {v w : List Str} {y : Str}
      (h : (os, c :: a!"_UC") ∈ acronymSet) (m : Mat os v) (k : Dec w y) : Dec (v ++ w) (c :: y)

/-- The translits of letters. -/
def T (y : Str) : Str := y.flatMap fun c => Ltn.tr (c :: a!"_UC")

set_option maxRecDepth 100000 in
theorem set_alias : (acronymSet.all fun p => (match p.1 with | [] => false | _ => true) &&
    match p.2 with | c :: s => seq s a!"_UC" && seq (Ltn.tr p.2) (96 :: c :: a!"_uc`") &&
      (Ltn.ASCII_UC.any fun d => seq d.tr (Ltn.tr p.2)) | [] => false) = true := by
  decide +kernel

theorem alias_of {os : List (List Str)} {a : Str} (h : (os, a) ∈ acronymSet) :
    os ≠ [] ∧ ∃ c, a = c :: a!"_UC" ∧ Ltn.tr a = 96 :: c :: a!"_uc`" ∧ ∃ d ∈ Ltn.ASCII_UC, d.tr = Ltn.tr a := by
  have h1 := List.all_eq_true.1 set_alias _ h
  rw [Bool.and_eq_true] at h1
  obtain ⟨h1, h2⟩ := h1
  refine ⟨fun he => by subst he; simp at h1, ?_⟩
  cases a with
  | nil => cases h2
  | cons c s =>
    simp only [Bool.and_eq_true, List.any_eq_true] at h2
    obtain ⟨⟨h2, h3⟩, d, hd, h4⟩ := h2
    have := seq_eq.1 h2
    subst this
    exact ⟨c, rfl, seq_eq.1 h3, d, hd, seq_eq.1 h4⟩

/-- All spellings of a letter. -/
def expand : List (List Str) → List Str
  | [] => [[]]
  | o :: os => o.flatMap fun a => (expand os).map fun s => encloseGrapheme (nm a) ++ s

theorem Mat.expand {os : List (List Str)} {w : List Str} (h : Mat os w) :
    w.flatMap encloseGrapheme ∈ expand os := by
  induction h with
  | nil => simp [Acr.expand]
  | @cons o os a w ha _ ih =>
    rw [List.flatMap_cons, Acr.expand, List.mem_flatMap]
    exact ⟨a, ha, List.mem_map.2 ⟨_, ih, rfl⟩⟩

/-- The spellings. -/
def code : List Str := acronymSet.flatMap fun p => Acr.expand p.1

set_option maxRecDepth 100000 in
theorem code_sard : Spellout.sardOk code (Spellout.suffixes code) 0 = true := by decide +kernel

set_option maxRecDepth 100000 in
theorem code_fun : (acronymSet.all fun p => (Acr.expand p.1).all fun s => acronymSet.all fun q =>
    bif (Acr.expand q.1).any (seq s) then seq p.2 q.2 else true) = true := by decide +kernel

theorem Dec.code {w : List Str} {y : Str} (h : Dec w y) :
    ∃ us : List Str, (∀ u ∈ us, u ∈ Acr.code) ∧ us.flatten = w.flatMap encloseGrapheme := by
  induction h with
  | nil => exact ⟨[], by simp, rfl⟩
  | @cons os c v w y h m _ ih =>
    obtain ⟨us, h1, h2⟩ := ih
    refine ⟨v.flatMap encloseGrapheme :: us, ?_, by rw [List.flatten_cons, h2, List.flatMap_append]⟩
    intro u hu
    rw [List.mem_cons] at hu
    rcases hu with rfl | hu
    · exact List.mem_flatMap.2 ⟨_, h, m.expand⟩
    · exact h1 u hu

theorem enclose_nil {t : List Str} (h : t.flatMap encloseGrapheme = []) : t = [] := by
  cases t with
  | nil => rfl
  | cons a t => simp [encloseGrapheme] at h

/-- The first letter is unique. -/
theorem dec_first {os os' : List (List Str)} {a a' : Str} {v v' w w' : List Str} {y y' : Str}
    (h : (os, a) ∈ acronymSet) (m : Mat os v) (k : Dec w y)
    (h' : (os', a') ∈ acronymSet) (m' : Mat os' v') (k' : Dec w' y') (he : v ++ w = v' ++ w') :
    v = v' ∧ w = w' ∧ a = a' := by
  obtain ⟨us, h1, h2⟩ := k.code
  obtain ⟨us', h1', h2'⟩ := k'.code
  have hc : ∀ {os : List (List Str)} {a : Str} {v : List Str}, (os, a) ∈ acronymSet → Mat os v →
      v.flatMap encloseGrapheme ∈ code := fun h m => List.mem_flatMap.2 ⟨_, h, m.expand⟩
  have hu := Spellout.sard_unique (Spellout.sard_of code_sard)
    (v.flatMap encloseGrapheme :: us) (v'.flatMap encloseGrapheme :: us') [] []
    (by intro u hu; rw [List.mem_cons] at hu; rcases hu with rfl | hu; exacts [hc h m, h1 u hu])
    (by intro u hu; rw [List.mem_cons] at hu; rcases hu with rfl | hu; exacts [hc h' m', h1' u hu])
    (.inl rfl) (.inl rfl)
    (by rw [List.flatten_cons, List.flatten_cons, h2, h2', ← List.flatMap_append,
      ← List.flatMap_append, he])
  injection hu with hv _
  have hvv : v = v' := by
    rcases List.append_eq_append_iff.1 he with ⟨t, rfl, _⟩ | ⟨t, rfl, _⟩
    · rw [List.flatMap_append, eq_comm, List.append_right_eq_self] at hv
      rw [enclose_nil hv, List.append_nil]
    · rw [List.flatMap_append, List.append_right_eq_self] at hv
      rw [enclose_nil hv, List.append_nil]
  subst hvv
  refine ⟨rfl, List.append_cancel_left he, ?_⟩
  have h3 := List.all_eq_true.1 (List.all_eq_true.1 (List.all_eq_true.1 code_fun _ h) _ m.expand) _ h'
  have h4 : (Acr.expand os').any (seq (v.flatMap encloseGrapheme)) = true :=
    List.any_eq_true.2 ⟨_, m'.expand, seq_eq.2 rfl⟩
  simp only [h4, cond_true] at h3
  exact seq_eq.1 h3

/-! ## The stage of acronyms -/

/-- The rules. -/
def τ : Rel := unionR ((acronymSet.map fun p => (letter p.1, tr p.2)).map fun p => cross p.1 p.2)

/-- The contexts. -/
def C : Cx Nat := ctxOf (cat (cat (str [bos]) EN_LETTERS) SKIP) (cat SKIP (cat LETTERS (str [eos])))

theorem acr_eq : HI_ACR_TYP_TO_TR = [fun x y => Over byteLabel x ∧ Over byteLabel y ∧ Cdr τ C [] x y] := rfl

theorem τ_iff {l r : Str} : τ l r ↔ ∃ p ∈ acronymSet, lett p.1 l ∧ r = Ltn.tr p.2 := by
  constructor
  · rintro ⟨R, hR, h⟩
    rw [List.map_map] at hR
    obtain ⟨p, hp, rfl⟩ := List.mem_map.1 hR
    exact ⟨p, hp, letter_eq p.1 ▸ h.1, h.2⟩
  · rintro ⟨p, hp, h1, h2⟩
    refine ⟨_, List.mem_map.2 ⟨_, List.mem_map.2 ⟨p, hp, rfl⟩, rfl⟩, ?_, h2⟩
    rw [letter_eq]; exact h1

theorem τ_head {l r : Str} (h : τ l r) : ∃ t, l = 60 :: t := by
  obtain ⟨⟨os, a⟩, hp, h1, _⟩ := τ_iff.1 h
  rcases lett_st0 h1 with rfl | h2
  · have := (alias_of hp).1
    cases os with
    | nil => exact absurd rfl this
    | cons o os => obtain ⟨_, _, _, _, _, _, h3⟩ := lett_cons.1 h1; cases h3
  · exact h2

theorem τ_ne (l r : Str) (h : τ l r) : l ≠ [] := by obtain ⟨t, rfl⟩ := τ_head h; simp

/-- A forced copy. -/
theorem cdr_copy {α : Type} {τ : List α → List α → Prop} {C : Cx α} (hne : ∀ l r, τ l r → l ≠ [])
    {out rest y : List α} {c : α}
    (hno : ∀ l r rest', τ l r → c :: rest = l ++ rest' → C.left out → ¬ C.right rest')
    (h : Cdr τ C out (c :: rest) y) : Cdr τ C (out ++ [c]) rest y := by
  generalize hr : c :: rest = rest0 at h
  cases h with
  | done => cases hr
  | insEnd => cases hr
  | apply h' hl' hL' hR' k' => exact absurd hR' (hno _ _ _ h' hr hL')
  | ins h' => exact absurd rfl (hne _ _ h')
  | copy h' k' => injection hr with h1 h2; subst h1; subst h2; exact k'

/-- The end. -/
theorem cdr_end {α : Type} {τ : List α → List α → Prop} {C : Cx α} (hne : ∀ l r, τ l r → l ≠ [])
    {out y : List α} (h : Cdr τ C out [] y) : y = out := by
  generalize hr : ([] : List α) = rest0 at h
  cases h with
  | done => rfl
  | insEnd h' => exact absurd rfl (hne _ _ h')
  | apply h' => simp [hne _ _ h'] at hr
  | ins => cases hr
  | copy => cases hr

set_option maxRecDepth 100000 in
theorem en_chars : (Ltn.ASCII_UC.all fun d => d.tr.all fun c => (Nat.ble 61 c && Nat.ble c 127)) = true := by
  decide +kernel

theorem en_no60 {e : Str} (h : EN_LETTERS e) : ∀ c ∈ e, 60 < c ∧ c < 256 := by
  induction h with
  | nil => simp
  | @cons u v hu _ ih =>
    obtain ⟨L, hL, hu⟩ := hu
    obtain ⟨d, hd, rfl⟩ := List.mem_map.1 hL
    rw [show u = d.tr from hu]
    intro c hc
    rw [List.mem_append] at hc
    rcases hc with hc | hc
    · have := List.all_eq_true.1 (List.all_eq_true.1 en_chars d hd) c hc
      rw [Bool.and_eq_true] at this
      have h1 := Nat.le_of_ble_eq_true this.1
      have h2 := Nat.le_of_ble_eq_true this.2
      omega
    · exact ih c hc

theorem rsyms_no60 {k : Str} (h : SKIP k) : 60 ∉ k ∨ ∃ u, k = u ++ [61] := by
  rcases h with (⟨u, _, rfl, _, rfl⟩ | rfl) | (⟨_, s, rfl, rfl, hs⟩ | rfl)
  · exact .inr ⟨u, rfl⟩
  · exact .inl (by simp)
  · exact .inl (by have := (rsyms_chars hs).1; simp [EQ, this])
  · exact .inl (by simp)

theorem X_last {w : List Str} (hw : ∀ g ∈ w, Good B g) (hne : w ≠ []) : ∃ u c, X B w = u ++ [c] ∧ c ≠ 61 := by
  rcases List.eq_nil_or_concat w with rfl | ⟨w, g, rfl⟩
  · exact absurd rfl hne
  · rw [List.concat_eq_append] at hw ⊢
    have hg := hw g (by simp)
    obtain ⟨t, ht⟩ := hg.head
    rcases List.eq_nil_or_concat (B g) with h | ⟨b, c, h⟩
    · rw [ht] at h; cases h
    · rw [List.concat_eq_append] at h
      refine ⟨X B w ++ 60 :: (g ++ 62 :: 61 :: b), c, ?_, (hg.chars c (by rw [h]; simp)).2.1⟩
      rw [X_append, X_cons, h, X_nil]; simp

/-- After a grapheme that is kept no letter is read. -/
theorem no_left {e : Str} (he : EN_LETTERS e) {v : List Str} (hv : ∀ g ∈ v, Good B g) (hne : v ≠ []) :
    ¬ C.left (e ++ X B v) := by
  intro h
  have hb : ∀ c ∈ e ++ X B v, c < 256 := by
    intro c hc
    rw [List.mem_append] at hc
    rcases hc with hc | hc
    · exact (en_no60 he c hc).2
    · exact (X_over hv c hc).2
  obtain ⟨e', k, h1, he', hk⟩ := (left_iff hb).1 h
  have h60 : 60 ∈ e ++ X B v := by
    cases v with
    | nil => exact absurd rfl hne
    | cons g v => rw [X_cons]; simp
  rcases rsyms_no60 hk with h2 | ⟨u, rfl⟩
  · rw [h1, List.mem_append] at h60
    rcases h60 with h60 | h60
    · exact absurd (en_no60 he' _ h60).1 (by decide)
    · exact h2 h60
  · obtain ⟨u', c, h2, hc⟩ := X_last hv hne
    rw [h2, ← List.append_assoc, ← List.append_assoc] at h1
    have := List.append_inj_right' h1 rfl
    injection this with this
    exact hc this

theorem acr_dead {e : Str} (he : EN_LETTERS e) {v w : List Str} (hv : ∀ g ∈ v, Good B g) (hne : v ≠ [])
    (hw : ∀ g ∈ w, Good B g) {z : Str} (h : Cdr τ C (e ++ X B v) (X B w) z) : z = e ++ X B v ++ X B w := by
  induction w generalizing v with
  | nil => rw [X_nil] at h; rw [cdr_end τ_ne h, X_nil, List.append_nil]
  | cons g w ih =>
    have hg := hw g (by simp)
    rw [X_cons] at h
    have h1 := cdr_copy τ_ne (fun l r rest' _ _ hl => absurd hl (no_left he hv hne)) h
    rw [show g ++ 62 :: 61 :: (B g ++ X B w) = (g ++ 62 :: 61 :: B g) ++ X B w by simp] at h1
    have h2 := (cdr_skip τ_ne (s := g ++ 62 :: 61 :: B g) (fun c hc l r hlr => by
      obtain ⟨t, rfl⟩ := τ_head hlr
      simp only [List.head?_cons, Option.some.injEq, ne_eq]
      rintro rfl
      simp only [List.mem_append, List.mem_cons] at hc
      rcases hc with hc | hc | hc | hc
      · exact hg.no rfl hc
      · cases hc
      · cases hc
      · exact (hg.chars _ hc).1 rfl) _ _ _).1 h1
    have e1 : e ++ X B v ++ [60] ++ (g ++ 62 :: 61 :: B g) = e ++ X B (v ++ [g]) := by
      rw [X_append, X_cons, X_nil]; simp
    rw [e1] at h2
    have h3 := ih (v := v ++ [g]) (fun d hd => by
      rw [List.mem_append, List.mem_singleton] at hd
      rcases hd with hd | rfl
      exacts [hv d hd, hg]) (by simp) (fun d hd => hw d (by simp [hd])) h2
    rw [h3, ← e1, X_cons]; simp

theorem letters_dec {q : Str} (h : LETTERS q) : St0 q ∧ ∀ w : List Str, (∀ g ∈ w, Good B g) → q = X B w →
    ∃ y, Dec w y := by
  induction h with
  | nil =>
    refine ⟨.inl rfl, fun w _ h => ?_⟩
    cases w with
    | nil => exact ⟨[], .nil⟩
    | cons g w => rw [X_cons] at h; cases h
  | @cons u v hu _ ih =>
    obtain ⟨L, hL, hu⟩ := hu
    obtain ⟨⟨os, a⟩, hp, rfl⟩ := List.mem_map.1 hL
    rw [letter_eq] at hu
    refine ⟨(lett_st0 hu).append ih.1, fun w hw he => ?_⟩
    obtain ⟨w1, w2, rfl, rfl, rfl, hm⟩ := lett_split (set_plain hp) hw hu ih.1 he
    obtain ⟨y, hy⟩ := ih.2 w2 (fun g hg => hw g (by simp [hg])) rfl
    obtain ⟨_, c, rfl, _⟩ := alias_of hp
    exact ⟨c :: y, .cons hp hm hy⟩

theorem dec_letters {w : List Str} {y : Str} (h : Dec w y) (hw : ∀ g ∈ w, Good B g) : LETTERS (X B w) := by
  induction h with
  | nil => exact .nil
  | @cons os c v w y h m _ ih =>
    rw [X_append]
    refine .cons ⟨letter os, List.mem_map.2 ⟨_, h, rfl⟩, ?_⟩ (ih fun g hg => hw g (by simp [hg]))
    rw [letter_eq]
    exact lett_of m fun g hg => hw g (by simp [hg])

/-- An application of a rule reads a letter before letters. -/
theorem acr_apply {w : List Str} (hw : ∀ g ∈ w, Good B g) {l r rest : Str} (h : τ l r)
    (he : X B w = l ++ rest) (hr : C.right rest) :
    ∃ os c v w' y, (os, c :: a!"_UC") ∈ acronymSet ∧ Mat os v ∧ Dec w' y ∧ w = v ++ w' ∧
      l = X B v ∧ rest = X B w' ∧ r = Ltn.tr (c :: a!"_UC") := by
  obtain ⟨⟨os, a⟩, hp, h1, rfl⟩ := τ_iff.1 h
  have hb : ∀ c ∈ rest, c < 256 := fun c hc => (X_over hw c (he ▸ by simp [hc])).2
  obtain ⟨k, q, rfl, hk, hq⟩ := (right_iff hb).1 hr
  obtain ⟨h2, h3⟩ := letters_dec (B := B) hq
  have hk0 : k = [] := by
    rcases skip_iff hk with rfl | ⟨u, rfl⟩ | ⟨s, rfl⟩
    · rfl
    · exfalso
      rw [List.append_assoc, ← List.append_assoc] at he
      obtain ⟨_, v', hv⟩ := X_eq61 hw he
      rcases h2 with rfl | ⟨t, rfl⟩
      · cases hv
      · cases hv
    · exfalso
      obtain ⟨⟨u', hu⟩, _⟩ := X_eq61 hw he
      obtain ⟨u, c, hl, hc⟩ := lett_last h1 (τ_ne _ _ h)
      rw [hl] at hu
      have := List.append_inj_right' hu rfl
      injection this with this
      exact hc this
  subst hk0
  rw [List.nil_append] at he ⊢
  obtain ⟨w1, w2, rfl, rfl, rfl, hm⟩ := lett_split (set_plain hp) hw h1 h2 he.symm
  obtain ⟨y, hy⟩ := h3 w2 (fun g hg => hw g (by simp [hg])) rfl
  obtain ⟨_, c, rfl, _⟩ := alias_of hp
  exact ⟨os, c, w1, w2, y, hp, hm, hy, rfl, rfl, rfl, rfl⟩

theorem en_append {e : Str} (he : EN_LETTERS e) {d : Chr} (hd : d ∈ Ltn.ASCII_UC) : EN_LETTERS (e ++ d.tr) := by
  induction he with
  | nil =>
    have : EN_LETTERS (d.tr ++ []) := .cons ⟨_, List.mem_map.2 ⟨d, hd, rfl⟩, rfl⟩ .nil
    simpa using this
  | @cons u v hu _ ih =>
    rw [List.append_assoc]
    exact .cons hu ih

theorem acr_run {e : Str} (he : EN_LETTERS e) {w : List Str} (hw : ∀ g ∈ w, Good B g) {z : Str}
    (h : Cdr τ C e (X B w) z) :
    (∃ y, Dec w y ∧ z = e ++ T y) ∨ ((¬ ∃ y, Dec w y) ∧ z = e ++ X B w) := by
  induction hn : w.length using Nat.strongRecOn generalizing e w with
  | _ n ih =>
  have hleft : C.left e := (left_iff fun c hc => (en_no60 he c hc).2).2 ⟨e, [], by simp, he, skip_nil⟩
  by_cases hd : ∃ y, Dec w y
  · left
    obtain ⟨y, hy⟩ := hd
    cases hy with
    | nil => exact ⟨[], .nil, by rw [X_nil] at h; rw [cdr_end τ_ne h]; simp [T]⟩
    | @cons os c v w y hp m k =>
      have hv : v ≠ [] := by
        rintro rfl
        cases m with
        | nil => exact (alias_of hp).1 rfl
      have hap : τ (X B v) (Ltn.tr (c :: a!"_UC")) :=
        τ_iff.2 ⟨_, hp, lett_of m fun g hg => hw g (by simp [hg]), rfl⟩
      have hw' : ∀ g ∈ w, Good B g := fun g hg => hw g (by simp [hg])
      have hright : C.right (X B w) := (right_iff fun c hc => (X_over hw' c hc).2).2
        ⟨[], _, rfl, skip_nil, dec_letters k hw'⟩
      have hstep : Cdr τ C (e ++ Ltn.tr (c :: a!"_UC")) (X B w) z := by
        generalize hr : X B (v ++ w) = rest0 at h
        cases h with
        | done =>
          rw [X_append] at hr
          exact absurd (List.append_eq_nil_iff.1 hr).1 (τ_ne _ _ hap)
        | insEnd h' => exact absurd rfl (τ_ne _ _ h')
        | @apply _ l r rest _ h' hl' hL' hR' k' =>
          obtain ⟨os', c', v', w', y', hp', m', k'', hvw, rfl, rfl, rfl⟩ := acr_apply hw h' hr hR'
          obtain ⟨rfl, rfl, ha⟩ := dec_first hp m k hp' m' k'' hvw
          injection ha with ha _
          subst ha
          exact k'
        | ins h' => exact absurd rfl (τ_ne _ _ h')
        | copy h' k' =>
          rw [X_append] at hr
          exact absurd hright (h' _ _ _ hap hr.symm hleft)
      obtain ⟨_, _, hcc, _, d, hdm, hdt⟩ := alias_of hp
      have hl : w.length < n := by
        rw [← hn, List.length_append]
        have := List.length_pos_iff.2 hv
        omega
      rcases ih _ hl (hdt ▸ en_append he hdm) hw' hstep rfl with ⟨y', hy', rfl⟩ | ⟨hno, _⟩
      · exact ⟨c :: y', .cons hp m hy', by simp [T]⟩
      · exact absurd ⟨y, k⟩ hno
  · right
    refine ⟨hd, ?_⟩
    cases w with
    | nil => exact absurd ⟨[], .nil⟩ hd
    | cons g w =>
      have hg := hw g (by simp)
      have h0 := h
      rw [X_cons] at h
      have h1 := cdr_copy τ_ne (fun l r rest' hlr hr _ hR => by
        obtain ⟨os', c', v', w', y', hp', m', k'', hvw, _⟩ := acr_apply hw hlr (by rw [X_cons]; exact hr) hR
        exact hd ⟨c' :: y', hvw ▸ .cons hp' m' k''⟩) h
      rw [show g ++ 62 :: 61 :: (B g ++ X B w) = (g ++ 62 :: 61 :: B g) ++ X B w by simp] at h1
      have h2 := (cdr_skip τ_ne (s := g ++ 62 :: 61 :: B g) (fun c hc l r hlr => by
        obtain ⟨t, rfl⟩ := τ_head hlr
        simp only [List.head?_cons, Option.some.injEq, ne_eq]
        rintro rfl
        simp only [List.mem_append, List.mem_cons] at hc
        rcases hc with hc | hc | hc | hc
        · exact hg.no rfl hc
        · cases hc
        · cases hc
        · exact (hg.chars _ hc).1 rfl) _ _ _).1 h1
      have e1 : e ++ [60] ++ (g ++ 62 :: 61 :: B g) = e ++ X B [g] := by
        rw [X_cons, X_nil]; simp
      rw [e1] at h2
      have h3 := acr_dead he (v := [g]) (by simpa using hg) (by simp) (fun d hd => hw d (by simp [hd])) h2
      rw [h3, ← e1, X_cons]; simp

theorem dec_en {w : List Str} {y : Str} (h : Dec w y) : EN_LETTERS (T y) := by
  induction h with
  | nil => exact .nil
  | @cons os c v w y h _ _ ih =>
    obtain ⟨_, _, _, _, d, hdm, hdt⟩ := alias_of h
    rw [show T (c :: y) = Ltn.tr (c :: a!"_UC") ++ T y by simp [T], ← hdt]
    exact .cons ⟨_, List.mem_map.2 ⟨d, hdm, rfl⟩, rfl⟩ ih

theorem dec_unique {w : List Str} {y y' : Str} (h : Dec w y) (h' : Dec w y') : y = y' := by
  induction h generalizing y' with
  | nil =>
    generalize hw : ([] : List Str) = w at h'
    cases h' with
    | nil => rfl
    | @cons os c v w y h m _ =>
      exfalso
      cases m with
      | nil => exact (alias_of h).1 rfl
      | cons => cases hw
  | @cons os c v w y h m k ih =>
    generalize hw : v ++ w = w0 at h'
    cases h' with
    | nil =>
      exfalso
      cases m with
      | nil => exact (alias_of h).1 rfl
      | cons => cases hw
    | @cons os' c' v' w' y' h' m' k' =>
      obtain ⟨rfl, rfl, ha⟩ := dec_first h m k h' m' k' hw
      injection ha with ha _
      rw [ha, ih k']

/-- The stage on a text. -/
theorem acr_stage {w : List Str} (hw : ∀ g ∈ w, Good B g) (z : Str) :
    compose HI_ACR_TYP_TO_TR (X B w) z ↔
      (∃ y, Dec w y ∧ z = T y) ∨ ((¬ ∃ y, Dec w y) ∧ z = X B w) := by
  have hc : compose HI_ACR_TYP_TO_TR (X B w) z ↔ Over byteLabel (X B w) ∧ Over byteLabel z ∧ Cdr τ C [] (X B w) z := by
    rw [acr_eq]; exact Iff.rfl
  rw [hc]
  constructor
  · rintro ⟨_, _, h⟩
    simpa using acr_run .nil hw h
  · intro h
    obtain ⟨z', hz'⟩ := cdr_exists τ C [] (X B w)
    have h1 := acr_run .nil hw hz'
    simp only [List.nil_append] at h1
    have hz : z' = z := by
      rcases h with ⟨y, hy, rfl⟩ | ⟨hno, rfl⟩ <;> rcases h1 with ⟨y', hy', rfl⟩ | ⟨hno', rfl⟩
      · rw [dec_unique hy hy']
      · exact absurd ⟨y, hy⟩ hno'
      · exact absurd ⟨y', hy'⟩ hno
      · rfl
    subst hz
    refine ⟨X_over hw, ?_, hz'⟩
    rcases h1 with ⟨y', hy', rfl⟩ | ⟨_, rfl⟩
    · intro c hc
      have := en_no60 (dec_en hy') c hc
      unfold byteLabel; omega
    · exact X_over hw

end Acr
end Nisaba.NT
