import Verif.Model.LatticeText
import Verif.Lemmas.ExtractRead
import Verif.Props.FileUtil
import Verif.Lemmas.Kbest
/-!
# Lemmas on lattices as text
-/
namespace Nisaba.LatticeText
open Nisaba Nisaba.Fst
open Nisaba.ErrorRate (Err strJoin decimal)
open Nisaba.Extract
open Nisaba.Kbest (words)

variable {κ : Type}

/-! ## The lattice of a line -/

/-- Arcs of the states from `i` on, for words given by label and candidates. -/
def layers : Nat → List (Nat × List (Nat × κ)) → List (List (Arc κ))
  | _, [] => []
  | i, p :: ps => p.2.map (fun c => ⟨p.1, c.1, c.2, i + 1⟩) :: layers (i + 1) ps

theorem layers_length (i : Nat) (ps : List (Nat × List (Nat × κ))) : (layers i ps).length = ps.length := by
  induction ps generalizing i with
  | nil => rfl
  | cons p ps ih => simp [layers, ih]

theorem addArcs (cs : List (Nat × κ)) (l n : Nat) (f : VFst κ) (A : List (List (Arc κ)))
    (a b : List (Arc κ)) (h : f.arcs = A ++ [a, b]) :
    cs.foldl (fun g c => g.addArc A.length ⟨l, c.1, c.2, n⟩) f =
      { f with arcs := A ++ [a ++ cs.map (fun c => ⟨l, c.1, c.2, n⟩), b] } := by
  induction cs generalizing f a with
  | nil => simp [← h]
  | cons c cs ih =>
    have hm : (A ++ [a, b]).modify A.length (· ++ [(⟨l, c.1, c.2, n⟩ : Arc κ)]) =
        A ++ [a ++ [⟨l, c.1, c.2, n⟩], b] := by
      clear h ih
      induction A with
      | nil => rfl
      | cons x A ih => simp [List.modify_succ_cons, ih]
    rw [List.foldl_cons, ih (f.addArc A.length ⟨l, c.1, c.2, n⟩) (a ++ [⟨l, c.1, c.2, n⟩])
      (by simp only [VFst.addArc, h, hm])]
    simp [VFst.addArc]

/-- The words with their labels and candidates. -/
def labelled (C : Context κ) (ws : List Str) : List (Nat × List (Nat × κ)) :=
  ws.map fun w => ((C.isyms.find w).getD 0, C.cands w)

theorem addWords_eq (C : Context κ) (ws : List Str) (f : VFst κ) (A : List (List (Arc κ)))
    (hf : f.arcs = A ++ [[]])
    (hw : ∀ w ∈ ws, C.cands w ≠ [] ∧ ∃ l, C.isyms.find w = some l ∧ l ≠ 0) :
    addWords C f A.length ws =
      .ok ({ f with arcs := A ++ layers A.length (labelled C ws) ++ [[]] }, A.length + ws.length) := by
  induction ws generalizing f A with
  | nil => simp [addWords, labelled, layers, ← hf]
  | cons w ws ih =>
    obtain ⟨h1, l, h2, h3⟩ := hw w (by simp)
    have e : addWord f A.length l (C.cands w) =
        ({ f with arcs := A ++ [(C.cands w).map (fun c => ⟨l, c.1, c.2, A.length + 1⟩)] ++ [[]] },
          A.length + 1) := by
      have hl : f.arcs.length = A.length + 1 := by simp [hf]
      unfold addWord
      simp only [VFst.addState, hl]
      rw [addArcs (C.cands w) l (A.length + 1) { f with arcs := f.arcs ++ [[]] } A [] []
        (by simp [hf])]
      simp
    unfold addWords
    rw [if_neg h1, h2]
    simp only
    rw [if_neg h3, e]
    have := ih { f with arcs := A ++ [(C.cands w).map (fun c => ⟨l, c.1, c.2, A.length + 1⟩)] ++ [[]] }
      (A ++ [(C.cands w).map (fun c => ⟨l, c.1, c.2, A.length + 1⟩)]) rfl
      (fun x hx => hw x (by simp [hx]))
    simp only [List.length_append, List.length_cons, List.length_nil] at this
    simp only [Nat.zero_add] at this
    rw [this]
    simp [labelled, layers, h2]
    omega

/-- The lattice of words that all have candidates and labels. -/
theorem buildFst_eq (C : Context κ) (ws : List Str)
    (hw : ∀ w ∈ ws, C.cands w ≠ [] ∧ ∃ l, C.isyms.find w = some l ∧ l ≠ 0) :
    buildFst C ws = .ok ⟨layers 0 (labelled C ws) ++ [[]], some 0, [ws.length]⟩ := by
  unfold buildFst
  have := addWords_eq C ws ((({} : VFst κ).addState.1).setStart 0) [] rfl hw
  simp only [List.length_nil] at this
  rw [this]
  simp [VFst.setFinal, VFst.setStart, VFst.addState]

/-! ## Printing -/

/-- Lines of the states from `i` on. -/
def printed (fmt : κ → Str) (isyms osyms : SymTab) (pre : Str) :
    Nat → List (Nat × List (Nat × κ)) → List Str
  | _, [] => []
  | i, p :: ps => p.2.map (fun c => arcLine fmt isyms osyms pre i ⟨p.1, c.1, c.2, i + 1⟩) ++
      printed fmt isyms osyms pre (i + 1) ps

theorem walk_eq (fmt : κ → Str) (isyms osyms : SymTab) (pre : Str)
    (ps : List (Nat × List (Nat × κ))) (hps : ∀ p ∈ ps, p.2 ≠ []) (f : VFst κ) (A : List (List (Arc κ)))
    (hf : f.arcs = A ++ layers A.length ps ++ [[]]) (n : Nat) (hn : ps.length < n) :
    walk fmt isyms osyms pre f n A.length = some (.ok (printed fmt isyms osyms pre A.length ps)) := by
  induction ps generalizing A n with
  | nil =>
    match n, hn with
    | n + 1, _ =>
      simp [walk, hf, layers, printed]
  | cons p ps ih =>
    match n, hn with
    | n + 1, hn =>
      obtain ⟨l, cs⟩ := p
      match cs, hps (l, cs) (by simp) with
      | c :: cs, _ =>
        have hs : f.arcs[A.length]? = some ((c :: cs).map fun c => ⟨l, c.1, c.2, A.length + 1⟩) := by
          simp [hf, layers]
        have hall : (cs.map fun c => (⟨l, c.1, c.2, A.length + 1⟩ : Arc κ)).all
            (fun b => b.next == A.length + 1) = true := by
          simp
        have := ih (fun p hp => hps p (by simp [hp]))
          (A ++ [(c :: cs).map fun c => ⟨l, c.1, c.2, A.length + 1⟩])
          (by simp [hf, layers]) n (by simp at hn; omega)
        simp only [List.length_append, List.length_cons, List.length_nil, Nat.zero_add] at this
        unfold walk
        rw [hs]
        simp only [List.map_cons]
        rw [if_pos hall, this]
        simp [printed]

theorem strJoin_unlines (ls : List Str) : strJoin [10] (ls ++ [[]]) = Nisaba.Props.unlines ls := by
  induction ls with
  | nil => rfl
  | cons l ls ih =>
    cases ls with
    | nil => simp [strJoin, Nisaba.Props.unlines]
    | cons m ls =>
      rw [show l :: m :: ls ++ [[]] = l :: m :: (ls ++ [[]]) by simp, strJoin]
      rw [show m :: (ls ++ [[]]) = m :: ls ++ [[]] by simp, ih]
      simp [Nisaba.Props.unlines]

theorem print_eq (fmt : κ → Str) (isyms osyms : SymTab) (pre : Str)
    (ps : List (Nat × List (Nat × κ))) (hps : ∀ p ∈ ps, p.2 ≠ []) (fin : List Nat) :
    printTransliterations fmt isyms osyms pre ⟨layers 0 ps ++ [[]], some 0, fin⟩ true =
      some (.ok (Nisaba.Props.unlines (printed fmt isyms osyms pre 0 ps))) := by
  unfold printTransliterations
  simp only
  have := walk_eq fmt isyms osyms pre ps hps ⟨layers 0 ps ++ [[]], some 0, fin⟩ [] (by simp)
    ((⟨layers 0 ps ++ [[]], some 0, fin⟩ : VFst κ).numStates + 1)
    (by simp [VFst.numStates, layers_length])
  simp only [List.length_nil] at this
  rw [this]
  simp only [if_true, strJoin_unlines]

/-! ## Reading -/

/-- A text that is a field of its own on a line. -/
def Field (s : Str) : Prop := s ≠ [] ∧ 9 ∉ s ∧ 10 ∉ s

theorem splitTab_ne_nil (s : Str) : splitTab s ≠ [] := by
  cases s with
  | nil => simp [splitTab]
  | cons c s =>
    simp only [splitTab]
    split
    · simp
    · split <;> simp

theorem splitTab_field (s : Str) (h : 9 ∉ s) : splitTab s = [s] := by
  induction s with
  | nil => rfl
  | cons c s ih =>
    have hc : c ≠ 9 := by rintro rfl; simp at h
    simp [splitTab, hc, ih (by intro hs; exact h (by simp [hs]))]

theorem splitTab_append (s t : Str) (h : 9 ∉ s) : splitTab (s ++ 9 :: t) = s :: splitTab t := by
  induction s with
  | nil => simp [splitTab]
  | cons c s ih =>
    have hc : c ≠ 9 := by rintro rfl; simp at h
    simp [splitTab, hc, ih (by intro hs; exact h (by simp [hs]))]

theorem fields_cons (s t : Str) (h : 9 ∉ s) :
    fields (s ++ 9 :: t) = (if s = [] then [] else [s]) ++ fields t := by
  unfold fields
  rw [splitTab_append s t h]
  cases s with
  | nil => simp
  | cons c s => simp

theorem fields_last (s : Str) (h : 9 ∉ s) : fields s = if s = [] then [] else [s] := by
  unfold fields
  rw [splitTab_field s h]
  cases s with
  | nil => simp
  | cons c s => simp

theorem decimal_ne_nil (n : Nat) : decimal n ≠ [] := by
  unfold decimal
  simp [Nat.toDigits_ne_nil]

theorem decimal_digit (n c : Nat) (h : c ∈ decimal n) : isDigit c = true := by
  unfold decimal at h
  obtain ⟨d, hd, rfl⟩ := List.mem_map.1 h
  have := Nat.isDigit_of_mem_toDigits (b := 10) (by decide) (by decide) hd
  unfold Char.isDigit at this
  simp only [Bool.and_eq_true, decide_eq_true_eq, ge_iff_le] at this
  obtain ⟨h1, h2⟩ := this
  unfold isDigit
  simp only [Bool.and_eq_true, decide_eq_true_eq]
  exact ⟨h1, h2⟩

theorem decimal_field (n : Nat) : Field (decimal n) := by
  refine ⟨decimal_ne_nil n, ?_, ?_⟩
  · intro h; have := decimal_digit n _ h; revert this; decide
  · intro h; have := decimal_digit n _ h; revert this; decide

theorem digitsValue_map (l : List Char) : digitsValue (l.map Char.toNat) = Nat.ofDigitChars 10 l 0 := by
  unfold digitsValue
  rw [Nat.ofDigitChars_eq_foldl, List.foldl_map]
  rfl

theorem digitsValue_decimal (n : Nat) : digitsValue (decimal n) = n := by
  unfold decimal
  rw [digitsValue_map, Nat.ofDigitChars_ten_toDigits]

theorem takeWhile_all {α : Type} (p : α → Bool) (l : List α) (h : ∀ x ∈ l, p x = true) :
    l.takeWhile p = l := by
  induction l with
  | nil => rfl
  | cons a l ih => simp [h a (by simp), ih (fun x hx => h x (by simp [hx]))]

theorem stoi_decimal (n : Nat) (h : n < 2 ^ 31) : stoi (decimal n) = some (n : Int) := by
  cases hd : decimal n with
  | nil => exact absurd hd (decimal_ne_nil n)
  | cons c s =>
    have hc := decimal_digit n c (by simp [hd])
    have hsp : isSpace c = false := by
      simp only [isDigit, Bool.and_eq_true, decide_eq_true_eq] at hc
      simp only [isSpace, Bool.or_eq_false_iff, Bool.and_eq_false_iff, beq_eq_false_iff_ne,
        decide_eq_false_iff_not]
      omega
    have h1 : c ≠ 45 := by rintro rfl; simp [isDigit] at hc
    have h2 : c ≠ 43 := by rintro rfl; simp [isDigit] at hc
    have ht : (c :: s).takeWhile isDigit = c :: s :=
      takeWhile_all _ _ (fun x hx => decimal_digit n x (by rw [hd]; exact hx))
    have hv : digitsValue (c :: s) = n := by rw [← hd, digitsValue_decimal]
    unfold stoi
    simp only [List.dropWhile_cons, hsp, List.head?_cons,
      Bool.false_eq_true, if_false, h1, h2, Bool.or_self, Option.some_beq_some,
      (by simpa using h1 : (c == 45) = false), (by simpa using h2 : (c == 43) = false), ht, hv]
    rw [if_neg (by simp), if_neg (by omega)]


/-! ## Both -/

theorem arcLine_eq (fmt : κ → Str) (isyms osyms : SymTab) (pre : Str) (hp : pre ≠ []) (s : Nat) (a : Arc κ) :
    arcLine fmt isyms osyms pre s a = pre ++ 9 :: (decimal s ++ 9 :: (symName isyms a.ilabel ++ 9 ::
      (symName osyms a.olabel ++ 9 :: fmt a.weight))) := by
  simp [arcLine, hp, columns, strJoin]

theorem fields_four (a b c d : Str) (ha : Field a) (hb : Field b) (hc : 9 ∉ c) (hd : Field d) :
    fields (a ++ 9 :: (b ++ 9 :: (c ++ 9 :: d))) = [a, b] ++ (if c = [] then [] else [c]) ++ [d] := by
  rw [fields_cons _ _ ha.2.1, fields_cons _ _ hb.2.1, fields_cons _ _ hc, fields_last _ hd.2.1]
  simp [ha.1, hb.1, hd.1]

theorem parse_arcLine (fmt : κ → Str) (parse : Str → Option κ) (rd : κ → κ) (isyms osyms : SymTab)
    (i s : Nat) (a : Arc κ) (hi : i < 2 ^ 31) (hs : s < 2 ^ 31) (hf : Field (fmt a.weight))
    (hr : parse (fmt a.weight) = some (rd a.weight)) (h1 : Field (symName isyms a.ilabel))
    (h2 : Field (symName osyms a.olabel)) :
    parseLine parse (arcLine fmt isyms osyms (decimal i) s a) =
      .ok ⟨i, s, symName isyms a.ilabel, (symName osyms a.olabel, rd a.weight)⟩ := by
  unfold parseLine
  rw [arcLine_eq _ _ _ _ (decimal_ne_nil i), fields_cons _ _ (decimal_field i).2.1,
    fields_four _ _ _ _ (decimal_field s) h1 h2.2.1 hf]
  simp [decimal_ne_nil, h2.1, stoi_decimal i hi, stoi_decimal s hs, hr]

/-- The positions of a text as read. -/
def sourcePositions (rd : κ → κ) (isyms osyms : SymTab) (ps : List (Nat × List (Nat × κ))) :
    List (List (Str × (Str × κ))) :=
  ps.map fun p => p.2.map fun c => (symName isyms p.1, (symName osyms c.1, rd c.2))

theorem mapM_append_ok {α β ε : Type} (f : α → Except ε β) (l m : List α) (a b : List β)
    (h1 : l.mapM f = .ok a) (h2 : m.mapM f = .ok b) : (l ++ m).mapM f = .ok (a ++ b) := by
  rw [List.mapM_append, h1, h2]
  rfl

theorem mapM_map_ok {α β γ ε : Type} (f : β → Except ε γ) (g : α → β) (k : α → γ) (l : List α)
    (h : ∀ a ∈ l, f (g a) = .ok (k a)) : (l.map g).mapM f = .ok (l.map k) := by
  induction l with
  | nil => rfl
  | cons a l ih =>
    rw [List.map_cons, List.mapM_cons, h a (by simp), ih (fun x hx => h x (by simp [hx]))]
    rfl

/-- What has to hold of the words with labels and candidates of a text, from position `s` on. -/
structure Sound (fmt : κ → Str) (isyms osyms : SymTab) (i s : Nat) (ps : List (Nat × List (Nat × κ))) :
    Prop where
  index : i < 2 ^ 31
  pos : s + ps.length ≤ 2 ^ 31
  ne : ∀ p ∈ ps, p.2 ≠ []
  word : ∀ p ∈ ps, Field (symName isyms p.1)
  cand : ∀ p ∈ ps, ∀ c ∈ p.2, Field (symName osyms c.1)

theorem Sound.tail {fmt : κ → Str} {isyms osyms : SymTab} {i s : Nat} {p : Nat × List (Nat × κ)}
    {ps : List (Nat × List (Nat × κ))} (h : Sound fmt isyms osyms i s (p :: ps)) :
    Sound fmt isyms osyms i (s + 1) ps := by
  refine ⟨h.index, ?_, fun q hq => h.ne q (by simp [hq]), fun q hq => h.word q (by simp [hq]),
    fun q hq => h.cand q (by simp [hq])⟩
  have := h.pos
  simp at this
  omega

theorem parse_printed (fmt : κ → Str) (parse : Str → Option κ) (rd : κ → κ) (isyms osyms : SymTab)
    (hf : ∀ v, Field (fmt v)) (hr : ∀ v, parse (fmt v) = some (rd v)) (i s : Nat)
    (ps : List (Nat × List (Nat × κ))) (h : Sound fmt isyms osyms i s ps) :
    (printed fmt isyms osyms (decimal i) s ps).mapM (parseLine parse) =
      .ok (linesFrom i s (sourcePositions rd isyms osyms ps)) := by
  induction ps generalizing s with
  | nil => rfl
  | cons p ps ih =>
    rw [printed, sourcePositions, List.map_cons, linesFrom]
    refine mapM_append_ok _ _ _ _ _ ?_ (ih (s + 1) h.tail)
    rw [List.map_map]
    refine mapM_map_ok _ _ _ _ fun c hc => ?_
    have hpos := h.pos
    simp only [List.length_cons] at hpos
    exact parse_arcLine fmt parse rd isyms osyms i s ⟨p.1, c.1, c.2, s + 1⟩ h.index (by omega) (hf _)
      (hr _) (h.word p (by simp)) (h.cand p (by simp) c hc)

theorem line_printed (fmt : κ → Str) (isyms osyms : SymTab) (hf : ∀ v, Field (fmt v)) (i s n : Nat)
    (ps : List (Nat × List (Nat × κ))) (h : Sound fmt isyms osyms i s ps)
    (hn : ∀ p ∈ ps, ∀ c ∈ p.2, (symName isyms p.1).length + (symName osyms c.1).length +
      (fmt c.2).length ≤ n) :
    ∀ l ∈ printed fmt isyms osyms (decimal i) s ps, l ≠ [] ∧ 10 ∉ l ∧ l.length ≤ n + 24 := by
  have dl : ∀ m, m < 2 ^ 31 → (decimal m).length ≤ 10 := by
    intro m hm
    unfold decimal
    rw [List.length_map, Nat.length_toDigits_le_iff (by decide) (by decide)]
    omega
  induction ps generalizing s with
  | nil => simp [printed]
  | cons p ps ih =>
    intro l hl
    rw [printed] at hl
    rcases List.mem_append.1 hl with hl | hl
    · obtain ⟨c, hc, rfl⟩ := List.mem_map.1 hl
      rw [arcLine_eq _ _ _ _ (decimal_ne_nil i)]
      have hpos := h.pos
      simp only [List.length_cons] at hpos
      have h1 := dl i h.index
      have h2 := dl s (by omega)
      have h3 := hn p (by simp) c hc
      have w := (h.word p (by simp)).2.2
      have y := (h.cand p (by simp) c hc).2.2
      have v := (hf c.2).2.2
      have d1 := (decimal_field i).2.2
      have d2 := (decimal_field s).2.2
      refine ⟨by simp, by simp [w, y, v, d1, d2], ?_⟩
      simp only [List.length_append, List.length_cons]
      omega
    · exact ih (s + 1) h.tail (fun q hq => hn q (by simp [hq])) l hl

end Nisaba.LatticeText
