import Verif.Lemmas.ErrorRate
import Verif.Model.Kbest
import Verif.Props.Delimiters
/-!
# Lemmas on the lattice of candidate lists and on whitespace splitting
-/
namespace Nisaba.Kbest
open Nisaba Nisaba.Fst Nisaba.Utf8
open Nisaba.ErrorRate (modify_append_last)
open Nisaba.Props (encodeText joinWith C32_split_lossless C32_split_invalid Scalar)

/-- Arcs of a layer that starts at state `n`, from candidate `j` on. -/
def layer (n : Nat) : Nat → List Cand → List (Arc Rat)
  | _, [] => []
  | j, c :: cs => ⟨j + 1, j + 1, c.2, n + 1⟩ :: layer n (j + 1) cs

/-- Arcs of the lattice whose first state is `n`. -/
def layers : Nat → List (List Cand) → List (List (Arc Rat))
  | _, [] => [[]]
  | n, l :: ls => layer n 0 l :: layers (n + 1) ls

theorem addCands_eq (l : List Cand) (j : Nat) (f : VFst Rat) (pre : List (List (Arc Rat)))
    (A : List (Arc Rat)) (h : f.arcs = pre ++ [A] ++ [[]]) :
    addCands pre.length (pre.length + 1) j l f =
      { f with arcs := pre ++ [A ++ layer pre.length j l] ++ [[]] } := by
  induction l generalizing j f A with
  | nil => simp [addCands, layer, ← h]
  | cons c l ih =>
    have h2 : (f.addArc pre.length ⟨j + 1, j + 1, c.2, pre.length + 1⟩).arcs =
        pre ++ [A ++ [⟨j + 1, j + 1, c.2, pre.length + 1⟩]] ++ [[]] := by
      simp only [VFst.addArc, h]
      rw [modify_append_last]
    rw [addCands, ih _ _ _ h2]
    simp [VFst.addArc, layer]

theorem addLists_eq (ls : List (List Cand)) (f : VFst Rat) (pre : List (List (Arc Rat)))
    (h : f.arcs = pre ++ [[]]) :
    addLists ls f pre.length = ({ f with arcs := pre ++ layers pre.length ls }, pre.length + ls.length) := by
  induction ls generalizing f pre with
  | nil => simp [addLists, layers, ← h]
  | cons l ls ih =>
    have h1 : f.addState.2 = pre.length + 1 := by simp [VFst.addState, h]
    have h2 : f.addState.1.arcs = pre ++ [[]] ++ [[]] := by simp [VFst.addState, h]
    have h3 := addCands_eq l 0 f.addState.1 pre [] h2
    rw [addLists, h1, h3]
    have := ih { f.addState.1 with arcs := pre ++ [[] ++ layer pre.length 0 l] ++ [[]] }
      (pre ++ [layer pre.length 0 l]) (by simp)
    simp only [List.length_append, List.length_cons, List.length_nil] at this
    rw [this]
    simp [layers, VFst.addState, Nat.add_assoc, Nat.add_comm]

theorem rejoinFst_eq (lists : List (List Cand)) :
    rejoinFst lists = ⟨layers 0 lists, some 0, [lists.length]⟩ := by
  have := addLists_eq lists ((({} : VFst Rat).addState.1).setStart 0) [] rfl
  simp only [List.length_nil, List.nil_append, Nat.zero_add] at this
  have h0 : (({} : VFst Rat).addState).2 = 0 := rfl
  simp only [rejoinFst]
  rw [h0, this]
  rfl

theorem layer_mem (n j : Nat) (l : List Cand) (a : Arc Rat) :
    a ∈ layer n j l ↔ ∃ i c, l[i]? = some c ∧ a = ⟨j + i + 1, j + i + 1, c.2, n + 1⟩ := by
  induction l generalizing j with
  | nil => simp [layer]
  | cons c l ih =>
    simp only [layer, List.mem_cons, ih]
    constructor
    · rintro (rfl | ⟨i, c', h, rfl⟩)
      · exact ⟨0, c, rfl, rfl⟩
      · exact ⟨i + 1, c', by simpa using h, by simp; omega⟩
    · rintro ⟨i, c', h, rfl⟩
      cases i with
      | zero => simp at h; subst h; exact .inl rfl
      | succ i => exact .inr ⟨i, c', by simpa using h, by simp; omega⟩

theorem layers_getElem (n : Nat) (ls : List (List Cand)) (s : Nat) (as : List (Arc Rat)) :
    (layers n ls)[s]? = some as ↔
      (∃ l, ls[s]? = some l ∧ as = layer (n + s) 0 l) ∨ (s = ls.length ∧ as = []) := by
  induction ls generalizing n s with
  | nil => cases s with
    | zero => simp [layers, eq_comm]
    | succ s => simp [layers]
  | cons l ls ih => cases s with
    | zero => simp [layers, eq_comm]
    | succ s =>
      simp only [layers, List.getElem?_cons_succ, ih, List.length_cons]
      have : n + 1 + s = n + (s + 1) := by omega
      simp only [this]
      constructor
      · rintro (h | ⟨h, h'⟩)
        · exact .inl h
        · exact .inr ⟨by omega, h'⟩
      · rintro (h | ⟨h, h'⟩)
        · exact .inl h
        · exact .inr ⟨by omega, h'⟩

theorem rejoin_arc (lists : List (List Cand)) (s s' : Nat) (t : Step Rat) :
    (rejoinFst lists).mach.arc s t s' ↔
      ∃ l j c, lists[s]? = some l ∧ l[j]? = some c ∧ t = (j + 1, j + 1, c.2) ∧ s' = s + 1 := by
  rw [rejoinFst_eq]
  simp only [VFst.mach]
  constructor
  · rintro ⟨as, h, a, ha, rfl, rfl⟩
    rcases (layers_getElem 0 lists s as).1 h with ⟨l, hl, rfl⟩ | ⟨_, rfl⟩
    · obtain ⟨j, c, hj, rfl⟩ := (layer_mem _ _ _ _).1 ha
      exact ⟨l, j, c, hl, hj, by simp, by simp⟩
    · simp at ha
  · rintro ⟨l, j, c, hl, hj, rfl, rfl⟩
    exact ⟨_, (layers_getElem 0 lists s _).2 (.inl ⟨l, hl, rfl⟩), _,
      (layer_mem _ _ _ _).2 ⟨j, c, hj, rfl⟩, by simp, by simp⟩

/-- One candidate chosen from every list: their positions and the candidates. -/
inductive Choice : List (List Cand) → List Nat → List Cand → Prop
  | nil : Choice [] [] []
  | cons {l ls j js c cs} : l[j]? = some c → Choice ls js cs → Choice (l :: ls) (j :: js) (c :: cs)

/-- The path of a choice. -/
def stepsOf : List Nat → List Cand → List (Step Rat)
  | j :: js, c :: cs => (j + 1, j + 1, c.2) :: stepsOf js cs
  | _, _ => []

/-- Score of a choice. -/
def total (cs : List Cand) : Rat := (cs.map (·.2)).sum

theorem path_iff (done ls : List (List Cand)) (p : List (Step Rat)) :
    (rejoinFst (done ++ ls)).mach.Path done.length p ↔
      ∃ js cs, Choice ls js cs ∧ p = stepsOf js cs := by
  induction ls generalizing done p with
  | nil =>
    rw [List.append_nil]
    constructor
    · intro h
      cases h with
      | nil _ => exact ⟨[], [], .nil, rfl⟩
      | cons ha _ =>
        obtain ⟨l, j, c, hl, _⟩ := (rejoin_arc _ _ _ _).1 ha
        rw [List.getElem?_eq_none (Nat.le_refl _)] at hl
        cases hl
    · rintro ⟨js, cs, h, rfl⟩
      cases h
      exact .nil (by rw [rejoinFst_eq]; simp [VFst.mach])
  | cons l ls ih =>
    have e : done ++ l :: ls = (done ++ [l]) ++ ls := by simp
    have hl0 : (done ++ l :: ls)[done.length]? = some l := by simp
    constructor
    · intro h
      cases h with
      | nil hf =>
        rw [rejoinFst_eq] at hf
        simp [VFst.mach] at hf
      | cons ha hp =>
        obtain ⟨l', j, c, hl, hj, rfl, rfl⟩ := (rejoin_arc _ _ _ _).1 ha
        rw [hl0] at hl
        cases hl
        rw [e] at hp
        have := (ih (done ++ [l]) _).1 (by simpa using hp)
        obtain ⟨js, cs, hc, rfl⟩ := this
        exact ⟨j :: js, c :: cs, .cons hj hc, rfl⟩
    · rintro ⟨js, cs, h, rfl⟩
      cases h with
      | cons hj hc =>
        refine .cons ((rejoin_arc _ _ _ _).2 ⟨l, _, _, hl0, hj, rfl, rfl⟩) ?_
        have := (ih (done ++ [l]) _).2 ⟨_, _, hc, rfl⟩
        rw [← e] at this
        simpa using this

theorem accepts_iff (lists : List (List Cand)) (p : List (Step Rat)) :
    (rejoinFst lists).mach.Accepts p ↔ ∃ js cs, Choice lists js cs ∧ p = stepsOf js cs := by
  have := path_iff [] lists p
  rw [List.nil_append] at this
  rw [← this]
  unfold Mach.Accepts
  constructor
  · rintro ⟨s, hs, hp⟩
    rw [rejoinFst_eq] at hs
    simp [VFst.mach] at hs
    subst hs
    exact hp
  · intro hp
    exact ⟨0, by rw [rejoinFst_eq]; rfl, hp⟩

theorem choice_length {ls : List (List Cand)} {js : List Nat} {cs : List Cand} (h : Choice ls js cs) :
    js.length = ls.length ∧ cs.length = ls.length := by
  induction h with
  | nil => simp
  | cons _ _ ih => simp [ih.1, ih.2]

theorem choice_unique {ls : List (List Cand)} {js : List Nat} {cs ds : List Cand}
    (h : Choice ls js cs) (h' : Choice ls js ds) : cs = ds := by
  induction h generalizing ds with
  | nil => cases h'; rfl
  | cons hj _ ih =>
    cases h' with
    | cons hj' h' => rw [ih h']; rw [hj] at hj'; cases hj'; rfl

theorem weight_stepsOf {ls : List (List Cand)} {js : List Nat} {cs : List Cand} (h : Choice ls js cs) :
    weight (stepsOf js cs) = total cs := by
  induction h with
  | nil => rfl
  | cons _ _ ih =>
    simp only [weight, stepsOf, total, List.map_cons, List.sum_cons] at ih ⊢
    rw [ih]

theorem labels_stepsOf {ls : List (List Cand)} {js : List Nat} {cs : List Cand} (h : Choice ls js cs) :
    ((stepsOf js cs).map (·.1)).filter (· > 0) = js.map (· + 1) := by
  induction h with
  | nil => rfl
  | cons _ _ ih => simpa [stepsOf] using ih

theorem stepsOf_inj {ls : List (List Cand)} {js ks : List Nat} {cs ds : List Cand}
    (h : Choice ls js cs) (h' : Choice ls ks ds) (e : stepsOf js cs = stepsOf ks ds) : js = ks := by
  have := labels_stepsOf h
  rw [e, labels_stepsOf h'] at this
  have hm := congrArg (List.map (· - 1)) this
  have hid : ∀ l : List Nat, (l.map (· + 1)).map (· - 1) = l := by
    intro l; induction l with
    | nil => rfl
    | cons a l ih => simpa using ih
  rw [hid, hid] at hm
  exact hm.symm

theorem readPath_eq {ls : List (List Cand)} {js : List Nat} {cs : List Cand} (h : Choice ls js cs)
    (strs : List Str) (score : Rat) :
    readPath ls (js.map (· + 1)) strs score = .ok (strs ++ cs.map (·.1), score + total cs) := by
  induction h generalizing strs score with
  | nil => simp [readPath, total, Rat.add_zero]
  | cons hj _ ih =>
    simp only [List.map_cons, readPath, Nat.add_sub_cancel, hj, ih, List.append_assoc, total,
      List.sum_cons, Rat.add_assoc]
    rfl

/-- Pieces between delimiters. -/
def pieces (delims : Nat → Bool) : List Nat → List (List Nat)
  | [] => [[]]
  | c :: cs =>
    if delims c then [] :: pieces delims cs
    else match pieces delims cs with
      | [] => [[c]]
      | p :: ps => (c :: p) :: ps

theorem pieces_ne_nil (delims : Nat → Bool) (cs : List Nat) : pieces delims cs ≠ [] := by
  cases cs with
  | nil => simp [pieces]
  | cons c cs =>
    simp only [pieces]
    split
    · simp
    · split <;> simp

theorem pieces_prefix (delims : Nat → Bool) (p cs : List Nat) (hp : ∀ c ∈ p, delims c = false) :
    pieces delims (p ++ cs) = match pieces delims cs with
      | [] => [p]
      | q :: qs => (p ++ q) :: qs := by
  induction p with
  | nil =>
    cases h : pieces delims cs with
    | nil => exact absurd h (pieces_ne_nil _ _)
    | cons q qs => simp [h]
  | cons c p ih =>
    have ih := ih (fun x hx => hp x (by simp [hx]))
    simp only [List.cons_append, pieces, hp c (by simp), Bool.false_eq_true, if_false, ih]
    cases h : pieces delims cs <;> simp

theorem pieces_join (delims : Nat → Bool) (ps : List (List Nat)) (ds : List Nat)
    (hl : ps.length = ds.length + 1) (hd : ∀ d ∈ ds, delims d = true)
    (hp : ∀ p ∈ ps, ∀ c ∈ p, delims c = false) : pieces delims (joinWith ps ds) = ps := by
  induction ds generalizing ps with
  | nil =>
    match ps, hl with
    | [p], _ =>
      have := pieces_prefix delims p [] (hp p (by simp))
      simp only [pieces] at this
      simpa [joinWith] using this
  | cons d ds ih =>
    match ps, hl with
    | p :: q :: ps, hl =>
      have ih := ih (q :: ps) (by simpa using hl) (fun x hx => hd x (by simp [hx]))
        (fun x hx => hp x (by simp [hx]))
      rw [joinWith, pieces_prefix delims p _ (hp p (by simp))]
      simp only [pieces, hd d (by simp), if_true, ih]
      simp

theorem pieces_append (delims : Nat → Bool) (a b : List Nat) (d : Nat) (hd : delims d = true) :
    pieces delims (a ++ d :: b) = pieces delims a ++ pieces delims b := by
  induction a with
  | nil => simp [pieces, hd]
  | cons c a ih =>
    simp only [List.cons_append, pieces]
    split
    · simp [ih]
    · rw [ih]
      cases h : pieces delims a with
      | nil => exact absurd h (pieces_ne_nil _ _)
      | cons q qs => simp

theorem encodeText_nil_iff (p : List Nat) : encodeText p = [] ↔ p = [] := by
  cases p with
  | nil => simp [encodeText]
  | cons c p => simp [encodeText, encodeRaw_ne_nil]

theorem strSplit_eq (delims : Nat → Bool) (cs : List Nat) (hcs : ∀ c ∈ cs, Scalar c) :
    strSplit delims (encodeText cs) = some ((pieces delims cs).map encodeText) := by
  obtain ⟨ps, ds, h1, h2, h3, h4, h5⟩ := C32_split_lossless delims cs hcs
  rw [h1, h3, pieces_join delims ps ds h2 h4 h5]

/-- The words of a text: maximal runs of characters that are not whitespace. -/
def wordsOf (cs : List Nat) : List (List Nat) :=
  (pieces whitespaceDelimiter cs).filter (fun p => !p.isEmpty)

theorem words_eq (cs : List Nat) (hcs : ∀ c ∈ cs, Scalar c) :
    words (encodeText cs) = some ((wordsOf cs).map encodeText) := by
  unfold words
  rw [strSplit_eq _ _ hcs]
  simp only [Option.map_some, wordsOf, Option.some.injEq]
  rw [List.filter_map]
  congr 1
  apply List.filter_congr
  intro p _
  simp only [Function.comp]
  cases p with
  | nil => rfl
  | cons c p =>
    have : encodeText (c :: p) ≠ [] := by rw [Ne, encodeText_nil_iff]; simp
    cases h : encodeText (c :: p) with
    | nil => exact absurd h this
    | cons => rfl

theorem wordsOf_append (a b : List Nat) : wordsOf (a ++ 32 :: b) = wordsOf a ++ wordsOf b := by
  unfold wordsOf
  rw [pieces_append _ _ _ _ (by decide), List.filter_append]

/-- Valid UTF-8 text. -/
def Text (s : Str) : Prop := ∃ cs, s = encodeText cs ∧ ∀ c ∈ cs, Scalar c

theorem text_of_words {s : Str} {ws : List Str} (h : words s = some ws) : Text s := by
  unfold words at h
  cases hv : isValid s with
  | false => rw [C32_split_invalid _ _ hv] at h; cases h
  | true =>
    obtain ⟨cs, h1, h2⟩ := (isValid_iff s).1 hv
    exact ⟨cs, h2, fun c hc => (Nisaba.Props.scalar_iff c).1 (h1 c hc)⟩

theorem text_join (s t : Str) (hs : Text s) (ht : Text t) : Text (s ++ 32 :: t) := by
  obtain ⟨a, rfl, ha⟩ := hs
  obtain ⟨b, rfl, hb⟩ := ht
  refine ⟨a ++ 32 :: b, by simp [encodeText, encodeRaw], ?_⟩
  intro c hc
  rcases List.mem_append.1 hc with h | h
  · exact ha c h
  · rcases List.mem_cons.1 h with rfl | h
    · exact (Nisaba.Props.scalar_iff 32).1 (by decide)
    · exact hb c h

theorem words_join (s t : Str) (hs : Text s) (ht : Text t) :
    ∃ a b, words s = some a ∧ words t = some b ∧ words (s ++ 32 :: t) = some (a ++ b) := by
  obtain ⟨a, rfl, ha⟩ := hs
  obtain ⟨b, rfl, hb⟩ := ht
  refine ⟨_, _, words_eq a ha, words_eq b hb, ?_⟩
  have e : encodeText a ++ 32 :: encodeText b = encodeText (a ++ 32 :: b) := by
    simp [encodeText, encodeRaw]
  rw [e, words_eq _ (by
    intro c hc
    rcases List.mem_append.1 hc with h | h
    · exact ha c h
    · rcases List.mem_cons.1 h with rfl | h
      · exact (Nisaba.Props.scalar_iff 32).1 (by decide)
      · exact hb c h), wordsOf_append, List.map_append]

end Nisaba.Kbest
