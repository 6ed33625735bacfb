import Verif.Model.WordpieceFst
import Verif.Props.Wordpiece
/-!
# The transducer from words to word pieces (C87)
-/
namespace Nisaba.Props
open Nisaba Nisaba.Wordpiece Nisaba.Utf8 Nisaba.Fst

/-- Input labels of a path. -/
def pathIn (p : List (Step Nat)) : List Nat := (p.map (·.1)).filter (· ≠ 0)

/-- Output labels of a path. -/
def pathOut (p : List (Step Nat)) : List Nat := (p.map (·.2.1)).filter (· ≠ 0)

/-- Label given to a piece. -/
def labelOf (pieceSyms : SymTab) (unk : List Nat) (p : List Nat) : Nat :=
  ((pieceSyms.find p).or (pieceSyms.find unk)).getD 0

/-- From state `s` on there is one way: the labels, then the word, back to the start. -/
inductive Chain (arcs : List (List (Arc Nat))) (w : Nat) : Nat → List Nat → Prop
  | nil {s} : s ≠ 0 → arcs[s]? = some [⟨w, 0, 0, 0⟩] → Chain arcs w s []
  | cons {s s' l ls} : s ≠ 0 → arcs[s]? = some [⟨0, l, 0, s'⟩] → Chain arcs w s' ls → Chain arcs w s (l :: ls)

/-- An arc of the start state that leads to the labels and the word. -/
inductive Entry (arcs : List (List (Arc Nat))) (w : Nat) : Arc Nat → List Nat → Prop
  | nil : Entry arcs w ⟨w, 0, 0, 0⟩ []
  | cons {s l ls} : Chain arcs w s ls → Entry arcs w ⟨0, l, 0, s⟩ (l :: ls)

theorem Chain.mono {A B : List (Arc Nat)} {R S : List (List (Arc Nat))} {w s : Nat} {ls : List Nat}
    (h : Chain (A :: R) w s ls) : Chain (B :: (R ++ S)) w s ls := by
  have key : ∀ (t : Nat) (x : List (Arc Nat)), t ≠ 0 → (A :: R)[t]? = some x →
      (B :: (R ++ S))[t]? = some x := by
    intro t x ht hx
    cases t with
    | zero => exact absurd rfl ht
    | succ t =>
      simp only [List.getElem?_cons_succ] at hx ⊢
      rw [List.getElem?_append_left (List.getElem?_eq_some_iff.1 hx).1, hx]
  induction h with
  | nil h1 h2 => exact .nil h1 (key _ _ h1 h2)
  | cons h1 h2 _ ih => exact .cons h1 (key _ _ h1 h2) ih

theorem Entry.mono {A B : List (Arc Nat)} {R S : List (List (Arc Nat))} {w : Nat} {a : Arc Nat}
    {ls : List Nat} (h : Entry (A :: R) w a ls) : Entry (B :: (R ++ S)) w a ls := by
  cases h with
  | nil => exact .nil
  | cons h => exact .cons h.mono

/-- Arcs added for labels from the fresh state `n` on. -/
def chainArcs (w : Nat) : Nat → List Nat → List (List (Arc Nat))
  | _, [] => [[⟨w, 0, 0, 0⟩]]
  | n, l :: ls => [⟨0, l, 0, n + 1⟩] :: chainArcs w (n + 1) ls

theorem chainArcs_chain (w : Nat) (ls : List Nat) (pre : List (List (Arc Nat))) (hp : pre ≠ []) :
    Chain (pre ++ chainArcs w pre.length ls) w pre.length ls := by
  induction ls generalizing pre with
  | nil =>
    refine .nil ?_ (by simp [chainArcs])
    have := List.length_pos_iff.2 hp
    omega
  | cons l ls ih =>
    have := List.length_pos_iff.2 hp
    refine .cons (s' := pre.length + 1) (by omega) (by simp [chainArcs]) ?_
    have := ih (pre ++ [[⟨0, l, 0, pre.length + 1⟩]]) (by simp)
    simpa [chainArcs] using this

/-- Adding pieces from a fresh state, then the word. -/
theorem addPieces_fresh {syms : SymTab} {unk : Option Nat} (ps : List (List Nat)) (ls : List Nat)
    (h : ps.mapM (pieceLabel syms unk) = .ok ls) (w : Nat) (f : VFst Nat) (pre : List (List (Arc Nat)))
    (hf : f.arcs = pre ++ [[]]) (hp : pre ≠ []) :
    ∃ g c, addPieces syms unk ps f pre.length = .ok (g, c) ∧
      g.addArc c ⟨w, 0, 0, 0⟩ = { f with arcs := pre ++ chainArcs w pre.length ls } := by
  have hmod : ∀ (Q : List (List (Arc Nat))) (a : Arc Nat) (R : List (List (Arc Nat))),
      (Q ++ [] :: R).modify Q.length (· ++ [a]) = Q ++ [a] :: R := by
    intro Q a R
    induction Q with
    | nil => rfl
    | cons x Q ih => simpa [List.modify_succ_cons] using ih
  induction ps generalizing ls f pre with
  | nil =>
    have : ls = [] := by simpa [pure, Except.pure, eq_comm] using h
    subst this
    refine ⟨f, pre.length, rfl, ?_⟩
    simp only [VFst.addArc, hf, chainArcs, hmod]
  | cons p ps ih =>
    rw [List.mapM_cons] at h
    cases hl : pieceLabel syms unk p with
    | error e => rw [hl] at h; cases h
    | ok l =>
      rw [hl] at h
      cases hr : ps.mapM (pieceLabel syms unk) with
      | error e => rw [hr] at h; cases h
      | ok ls' =>
        rw [hr] at h
        have : l :: ls' = ls := by simpa [bind, Except.bind, pure, Except.pure] using h
        subst this
        have h2 : f.addState.2 = pre.length + 1 := by simp [VFst.addState, hf]
        obtain ⟨g, c, e1, e2⟩ := ih ls' hr
          (f.addState.1.addArc pre.length ⟨0, l, 0, pre.length + 1⟩) (pre ++ [[⟨0, l, 0, pre.length + 1⟩]])
          (by
            have := hmod pre ⟨0, l, 0, pre.length + 1⟩ [[]]
            simp [VFst.addArc, VFst.addState, hf, this]) (by simp)
        refine ⟨g, c, ?_, ?_⟩
        · simp only [addPieces, hl, h2]
          simpa using e1
        · rw [e2]
          simp [VFst.addArc, VFst.addState, chainArcs]

/-- Adding the path of a word. -/
theorem addPieces_start {syms : SymTab} {unk : Option Nat} (ps : List (List Nat)) (ls : List Nat)
    (h : ps.mapM (pieceLabel syms unk) = .ok ls) (w : Nat) (f : VFst Nat) (A : List (Arc Nat))
    (R : List (List (Arc Nat))) (hf : f.arcs = A :: R) :
    ∃ g c a S, addPieces syms unk ps f 0 = .ok (g, c) ∧
      g.addArc c ⟨w, 0, 0, 0⟩ = { f with arcs := (A ++ [a]) :: (R ++ S) } ∧
      Entry ((A ++ [a]) :: (R ++ S)) w a ls := by
  cases ps with
  | nil =>
    have : ls = [] := by simpa [pure, Except.pure, eq_comm] using h
    subst this
    exact ⟨f, 0, ⟨w, 0, 0, 0⟩, [], rfl, by simp [VFst.addArc, hf], .nil⟩
  | cons p ps =>
    rw [List.mapM_cons] at h
    cases hl : pieceLabel syms unk p with
    | error e => rw [hl] at h; cases h
    | ok l =>
      rw [hl] at h
      cases hr : ps.mapM (pieceLabel syms unk) with
      | error e => rw [hr] at h; cases h
      | ok ls' =>
        rw [hr] at h
        have : l :: ls' = ls := by simpa [bind, Except.bind, pure, Except.pure] using h
        subst this
        have h2 : f.addState.2 = R.length + 1 := by simp [VFst.addState, hf]
        obtain ⟨g, c, e1, e2⟩ := addPieces_fresh ps ls' hr w
          (f.addState.1.addArc 0 ⟨0, l, 0, R.length + 1⟩) ((A ++ [⟨0, l, 0, R.length + 1⟩]) :: R)
          (by simp [VFst.addArc, VFst.addState, hf]) (by simp)
        refine ⟨g, c, ⟨0, l, 0, R.length + 1⟩, chainArcs w (R.length + 1) ls', ?_, ?_, ?_⟩
        · simp only [addPieces, hl, h2]
          simpa using e1
        · rw [e2]
          simp [VFst.addArc, VFst.addState]
        · refine .cons ?_
          have := chainArcs_chain w ls' ((A ++ [⟨0, l, 0, R.length + 1⟩]) :: R) (by simp)
          simpa using this

/-- The automaton has one entry for every word. -/
structure Star (f : VFst Nat) (ws : List (Nat × List Nat)) : Prop where
  start : f.start = some 0
  finals : f.finals = [0]
  arcs : ∃ A R, f.arcs = A :: R ∧ A.length = ws.length ∧
    ∀ (i : Nat) (a : Arc Nat) (x : Nat × List Nat), A[i]? = some a → ws[i]? = some x → Entry (A :: R) x.1 a x.2

theorem addWordPaths_star (seg : Segmenter) (wordSyms pieceSyms : SymTab) (unk : Option Nat)
    (lab : Nat → List Nat) (ws : List Nat)
    (hlab : ∀ w ∈ ws, ∃ ps, piecesOf seg ((wordSyms[w]?).getD []) = .ok ps ∧
      ps.mapM (pieceLabel pieceSyms unk) = .ok (lab w))
    (f : VFst Nat) (done : List (Nat × List Nat)) (hf : Star f done) :
    ∃ g, addWordPaths seg wordSyms pieceSyms unk ws f = .ok g ∧ Star g (done ++ ws.map (fun w => (w, lab w))) := by
  induction ws generalizing f done with
  | nil => exact ⟨f, rfl, by simpa using hf⟩
  | cons w ws ih =>
    obtain ⟨ps, h1, h2⟩ := hlab w (by simp)
    obtain ⟨A, R, hA, hlen, hent⟩ := hf.arcs
    obtain ⟨g, c, a, S, e1, e2, e3⟩ := addPieces_start ps (lab w) h2 w f A R hA
    obtain ⟨g', h3, h4⟩ := ih (fun x hx => hlab x (by simp [hx])) (g.addArc c ⟨w, 0, 0, 0⟩)
      (done ++ [(w, lab w)]) (by
        rw [e2]
        refine ⟨hf.start, hf.finals, A ++ [a], R ++ S, rfl, by simp [hlen], ?_⟩
        intro i b x hb hx
        by_cases hi : i < A.length
        · rw [List.getElem?_append_left hi] at hb
          rw [List.getElem?_append_left (by omega)] at hx
          exact (hent i b x hb hx).mono
        · have hb' := (List.getElem?_eq_some_iff.1 hb).1
          simp only [List.length_append, List.length_cons, List.length_nil] at hb'
          have : i = A.length := by omega
          subst this
          rw [List.getElem?_append_right (Nat.le_refl _)] at hb
          rw [List.getElem?_append_right (by omega)] at hx
          rw [hlen] at hx
          simp at hb hx
          subst hb hx
          exact e3)
    refine ⟨g', ?_, by simpa using h4⟩
    simp only [addWordPaths, h1, e1, h3]

theorem chain_path {f : VFst Nat} (hfin : f.finals = [0]) {w s : Nat} {ls : List Nat}
    (hc : Chain f.arcs w s ls) (p : List (Step Nat)) :
    f.mach.Path s p ↔ ∃ q, p = ls.map (fun l => ((0, l, 0) : Step Nat)) ++ (w, 0, 0) :: q ∧ f.mach.Path 0 q := by
  induction hc generalizing p with
  | nil h1 h2 =>
    constructor
    · intro h
      cases h with
      | nil hf => simp [VFst.mach, hfin] at hf; exact absurd hf h1
      | cons ha hp =>
        obtain ⟨as, h3, a, h4, rfl, rfl⟩ := ha
        rw [h2] at h3
        cases h3
        simp at h4
        subst h4
        exact ⟨_, rfl, hp⟩
    · rintro ⟨q, rfl, hq⟩
      exact .cons ⟨_, h2, ⟨w, 0, 0, 0⟩, by simp, rfl, rfl⟩ hq
  | @cons s s' l ls h1 h2 hc ih =>
    constructor
    · intro h
      cases h with
      | nil hf => simp [VFst.mach, hfin] at hf; exact absurd hf h1
      | cons ha hp =>
        obtain ⟨as, h3, a, h4, rfl, rfl⟩ := ha
        rw [h2] at h3
        cases h3
        simp at h4
        subst h4
        obtain ⟨q, rfl, hq⟩ := (ih _).1 hp
        exact ⟨q, rfl, hq⟩
    · rintro ⟨q, rfl, hq⟩
      exact .cons ⟨_, h2, ⟨0, l, 0, s'⟩, by simp, rfl, rfl⟩ ((ih _).2 ⟨q, rfl, hq⟩)

/-- A block of a path: the labels, then the word. -/
def block (x : Nat × List Nat) : List (Step Nat) := x.2.map (fun l => ((0, l, 0) : Step Nat)) ++ [(x.1, 0, 0)]

theorem star_paths {f : VFst Nat} {ws : List (Nat × List Nat)} (h : Star f ws) (p : List (Step Nat)) :
    f.mach.Accepts p ↔ ∃ xs : List (Nat × List Nat), (∀ x ∈ xs, x ∈ ws) ∧ p = xs.flatMap block := by
  obtain ⟨A, R, hA, hlen, hent⟩ := h.arcs
  have hacc : f.mach.Accepts p ↔ f.mach.Path 0 p := by
    unfold Mach.Accepts
    constructor
    · rintro ⟨s, hs, hp⟩
      have : f.start = some s := hs
      rw [h.start] at this
      cases this
      exact hp
    · intro hp
      exact ⟨0, h.start, hp⟩
  rw [hacc]
  -- one entry
  have hentry : ∀ (a : Arc Nat) (x : Nat × List Nat) (q : List (Step Nat)), Entry (A :: R) x.1 a x.2 →
      f.mach.Path a.next q → ∃ q', (a.ilabel, a.olabel, a.weight) :: q = block x ++ q' ∧ f.mach.Path 0 q' := by
    rintro a ⟨w, ls⟩ q he hq
    cases he with
    | nil => exact ⟨q, rfl, hq⟩
    | cons hc =>
      rw [← hA] at hc
      obtain ⟨q', rfl, hq'⟩ := (chain_path h.finals hc q).1 hq
      exact ⟨q', by simp [block], hq'⟩
  constructor
  · intro hp
    have key : ∀ n (p : List (Step Nat)), p.length ≤ n → f.mach.Path 0 p →
        ∃ xs : List (Nat × List Nat), (∀ x ∈ xs, x ∈ ws) ∧ p = xs.flatMap block := by
      intro n
      induction n with
      | zero =>
        intro p hn hp
        have : p = [] := List.length_eq_zero_iff.1 (by omega)
        exact ⟨[], by simp, by simp [this]⟩
      | succ n ih =>
        intro p hn hp
        cases hp with
        | nil _ => exact ⟨[], by simp, rfl⟩
        | cons ha hp =>
          obtain ⟨as, h3, a, h4, rfl, rfl⟩ := ha
          rw [hA] at h3
          simp at h3
          subst h3
          obtain ⟨i, hi⟩ := List.mem_iff_getElem?.1 h4
          have hlt : i < ws.length := by rw [← hlen]; exact (List.getElem?_eq_some_iff.1 hi).1
          have hx := List.getElem?_eq_getElem hlt
          obtain ⟨q', e, hq'⟩ := hentry a _ _ (hent i a _ hi hx) hp
          rw [e] at hn ⊢
          obtain ⟨xs, h5, h6⟩ := ih q' (by simp [block] at hn; omega) hq'
          refine ⟨ws[i] :: xs, ?_, by rw [h6]; rfl⟩
          intro x hx'
          rcases List.mem_cons.1 hx' with rfl | hx'
          · exact List.getElem_mem hlt
          · exact h5 x hx'
    exact key p.length p (Nat.le_refl _) hp
  · rintro ⟨xs, hxs, rfl⟩
    induction xs with
    | nil => exact .nil (by simp [VFst.mach, h.finals])
    | cons x xs ih =>
      have ih := ih (fun y hy => hxs y (by simp [hy])) (by
        unfold Mach.Accepts
        constructor
        · rintro ⟨s, hs, hp⟩
          have : f.start = some s := hs
          rw [h.start] at this
          cases this
          exact hp
        · intro hp
          exact ⟨0, h.start, hp⟩)
      obtain ⟨i, hi⟩ := List.mem_iff_getElem?.1 (hxs x (by simp))
      have hlt : i < A.length := by rw [hlen]; exact (List.getElem?_eq_some_iff.1 hi).1
      have he := hent i _ x (List.getElem?_eq_getElem hlt) hi
      have harc : f.mach.arc 0 (A[i].ilabel, A[i].olabel, A[i].weight) A[i].next :=
        ⟨A, by rw [hA]; rfl, A[i], List.getElem_mem hlt, rfl, rfl⟩
      obtain ⟨w, ls⟩ := x
      generalize A[i] = a at he harc
      rw [List.flatMap_cons]
      cases he with
      | nil => exact .cons harc ih
      | cons hc =>
        rw [← hA] at hc
        have := (chain_path h.finals hc _).2 ⟨_, rfl, ih⟩
        have := Mach.Path.cons harc this
        simpa [block] using this

/-- C87: for words with labels other than 0 and with valid UTF-8 symbols, the transducer maps every
sequence of these words to the sequence of the labels of their pieces, and to nothing else; it accepts
no other input.  Pieces that have no label have the label of the unknown piece; it is an error if that
is missing (`C87_unknown`). -/
theorem C87_relation (vocab : List (List Nat)) (pre : List Nat) (hpre : isValid pre = true)
    (inputWords : List Nat) (wordSyms pieceSyms : SymTab) (unk : List Nat) (hw0 : 0 ∉ inputWords)
    (hwords : ∀ w ∈ inputWords, ∃ s, wordSyms[w]? = some s ∧ isValid s = true)
    (hunk : unk ∈ pieceSyms) :
    ∃ f, wordpieceTransducer (mkSegmenter pre vocab) inputWords wordSyms pieceSyms unk = .ok f ∧
      ∀ ins outs : List Nat, (∃ p, f.mach.Accepts p ∧ pathIn p = ins ∧ pathOut p = outs) ↔
        (∀ w ∈ ins, w ∈ inputWords) ∧
        ∃ segs : List (List (List Nat)), segs.length = ins.length ∧
          (∀ (i w : Nat) (ps : List (List Nat)), ins[i]? = some w → segs[i]? = some ps →
            ∃ s, wordSyms[w]? = some s ∧ getWordpieces (mkSegmenter pre vocab) s = some (some (.ok ps))) ∧
          outs = (segs.flatten.map (labelOf pieceSyms unk)).filter (· ≠ 0) := by
  -- the unknown piece has a label
  obtain ⟨u, hu⟩ : ∃ u, pieceSyms.find unk = some u := by
    unfold SymTab.find
    have := List.isSome_idxOf?.2 hunk
    exact Option.isSome_iff_exists.1 this
  have hlab : ∀ ps : List (List Nat), ps.mapM (pieceLabel pieceSyms (some u)) = .ok (ps.map (labelOf pieceSyms unk)) := by
    intro ps
    induction ps with
    | nil => rfl
    | cons p ps ih =>
      have : pieceLabel pieceSyms (some u) p = .ok (labelOf pieceSyms unk p) := by
        unfold pieceLabel labelOf
        rw [hu]
        cases pieceSyms.find p <;> rfl
      rw [List.mapM_cons, this, ih]
      rfl
  -- pieces of the words
  have hpieces : ∀ w ∈ inputWords, ∃ ps, getWordpieces (mkSegmenter pre vocab) ((wordSyms[w]?).getD []) = some (some (.ok ps)) := by
    intro w hw
    obtain ⟨s, h1, h2⟩ := hwords w hw
    obtain ⟨_, segs, _, h3, _⟩ := C33_text vocab pre s hpre h2
    exact ⟨_, by rw [h1]; exact h3⟩
  classical
  let pc : Nat → List (List Nat) := fun w =>
    if h : ∃ ps, getWordpieces (mkSegmenter pre vocab) ((wordSyms[w]?).getD []) = some (some (.ok ps)) then h.choose else []
  have hpc : ∀ w ∈ inputWords, getWordpieces (mkSegmenter pre vocab) ((wordSyms[w]?).getD []) = some (some (.ok (pc w))) := by
    intro w hw
    have h := hpieces w hw
    simp only [pc]
    rw [dif_pos h]
    exact h.choose_spec
  obtain ⟨f, hf, hstar⟩ := addWordPaths_star (mkSegmenter pre vocab) wordSyms pieceSyms (some u)
    (fun w => (pc w).map (labelOf pieceSyms unk)) inputWords (by
      intro w hw
      refine ⟨pc w, ?_, hlab _⟩
      unfold piecesOf
      rw [hpc w hw]) ((({} : VFst Nat).addState.1.setStart 0).setFinal 0) []
      ⟨rfl, rfl, [], [], rfl, rfl, by simp⟩
  refine ⟨f, by rw [wordpieceTransducer, hu]; exact hf, ?_⟩
  intro ins outs
  rw [List.nil_append] at hstar
  have hin : ∀ xs : List Nat, (∀ w ∈ xs, w ≠ 0) →
      pathIn ((xs.map (fun w => (w, (pc w).map (labelOf pieceSyms unk)))).flatMap block) = xs := by
    intro xs hxs
    induction xs with
    | nil => rfl
    | cons w xs ih =>
      have ih := ih (fun x hx => hxs x (by simp [hx]))
      unfold pathIn at ih ⊢
      have hz : ∀ l : List Nat, ((l.map (fun l => ((0, l, 0) : Step Nat))).map (·.1)).filter (· ≠ 0) = [] := by
        intro l; induction l with
        | nil => rfl
        | cons a l ih => simpa using ih
      have hw := hxs w (by simp)
      rw [List.map_cons, List.flatMap_cons, List.map_append, List.filter_append, ih, block, List.map_append,
        List.filter_append, hz]
      simp [hw]
  have hout : ∀ xs : List Nat,
      pathOut ((xs.map (fun w => (w, (pc w).map (labelOf pieceSyms unk)))).flatMap block) =
        (((xs.map pc).flatten).map (labelOf pieceSyms unk)).filter (· ≠ 0) := by
    intro xs
    induction xs with
    | nil => rfl
    | cons w xs ih =>
      unfold pathOut at ih ⊢
      have hz : ∀ l : List Nat, ((l.map (fun l => ((0, l, 0) : Step Nat))).map (·.2.1)) = l := by
        intro l; induction l with
        | nil => rfl
        | cons a l ih => simpa using ih
      rw [List.map_cons, List.flatMap_cons, List.map_append, List.filter_append, ih, block, List.map_append, hz]
      simp
  constructor
  · rintro ⟨p, hp, rfl, rfl⟩
    obtain ⟨xs, hxs, rfl⟩ := (star_paths hstar p).1 hp
    obtain ⟨ys, rfl, hys⟩ : ∃ ys : List Nat, xs = ys.map (fun w => (w, (pc w).map (labelOf pieceSyms unk))) ∧
        ∀ y ∈ ys, y ∈ inputWords := by
      clear hp
      induction xs with
      | nil => exact ⟨[], rfl, by simp⟩
      | cons x xs ih =>
        obtain ⟨ys, rfl, h⟩ := ih (fun y hy => hxs y (by simp [hy]))
        obtain ⟨w, hw, rfl⟩ := List.mem_map.1 (hxs x (by simp))
        refine ⟨w :: ys, rfl, ?_⟩
        intro y hy
        rcases List.mem_cons.1 hy with rfl | hy
        · exact hw
        · exact h y hy
    have hne : ∀ w ∈ ys, w ≠ 0 := fun w hw e => hw0 (e ▸ hys w hw)
    rw [hin ys hne, hout]
    refine ⟨hys, ys.map pc, by simp, ?_, rfl⟩
    intro i w ps hi hps
    rw [List.getElem?_map, hi] at hps
    simp only [Option.map_some, Option.some.injEq] at hps
    have hm := hys w (List.mem_of_getElem? hi)
    obtain ⟨s, h1, _⟩ := hwords w hm
    refine ⟨s, h1, ?_⟩
    have := hpc w hm
    rw [h1] at this
    rw [← hps]
    exact this
  · rintro ⟨hins, segs, hl, hseg, rfl⟩
    have hne : ∀ w ∈ ins, w ≠ 0 := fun w hw e => hw0 (e ▸ hins w hw)
    refine ⟨_, (star_paths hstar _).2 ⟨ins.map (fun w => (w, (pc w).map (labelOf pieceSyms unk))), ?_, rfl⟩,
      hin ins hne, ?_⟩
    · intro x hx
      obtain ⟨w, hw, rfl⟩ := List.mem_map.1 hx
      exact List.mem_map.2 ⟨w, hins w hw, rfl⟩
    · rw [hout]
      have : ins.map pc = segs := by
        apply List.ext_getElem?
        intro i
        rw [List.getElem?_map]
        cases hi : ins[i]? with
        | none =>
          have := List.getElem?_eq_none_iff.1 hi
          rw [List.getElem?_eq_none (by omega)]
          rfl
        | some w =>
          have hlt := (List.getElem?_eq_some_iff.1 hi).1
          obtain ⟨s, h1, h2⟩ := hseg i w _ hi (List.getElem?_eq_getElem (by omega))
          have h3 := hpc w (hins w (List.mem_of_getElem? hi))
          rw [h1, Option.getD_some, h2] at h3
          rw [List.getElem?_eq_getElem (by omega)]
          simp only [Option.map_some, Option.some.injEq]
          simpa using h3.symm
      rw [this]

/-- C87: a piece without a label is an error when the unknown piece has none either. -/
theorem C87_unknown (vocab : List (List Nat)) (pre s : List Nat) (w : Nat) (ws : List Nat)
    (wordSyms pieceSyms : SymTab) (unk : List Nat) (hs : wordSyms[w]? = some s) (ps : List (List Nat))
    (hps : getWordpieces (mkSegmenter pre vocab) s = some (some (.ok ps))) (hunk : unk ∉ pieceSyms)
    (p : List Nat) (hp : p ∈ ps) (hnp : p ∉ pieceSyms) :
    wordpieceTransducer (mkSegmenter pre vocab) (w :: ws) wordSyms pieceSyms unk = .error .needOov := by
  have hfind : ∀ x : List Nat, x ∉ pieceSyms → pieceSyms.find x = none := by
    intro x hx
    unfold SymTab.find
    simpa using hx
  have hadd : ∀ (l : List (List Nat)) (f : VFst Nat) (c : Nat), p ∈ l →
      addPieces pieceSyms none l f c = .error .needOov := by
    intro l
    induction l with
    | nil => intro _ _ h; simp at h
    | cons q l ih =>
      intro f c h
      simp only [addPieces]
      cases hq : pieceLabel pieceSyms none q with
      | error e =>
        unfold pieceLabel at hq
        cases hx : pieceSyms.find q with
        | none => rw [hx] at hq; simp at hq; rw [← hq]
        | some y => rw [hx] at hq; cases hq
      | ok l' =>
        rcases List.mem_cons.1 h with rfl | h
        · unfold pieceLabel at hq
          rw [hfind _ hnp] at hq
          cases hq
        · exact ih _ _ h
  unfold wordpieceTransducer
  simp only [addWordPaths, piecesOf, hs, Option.getD_some, hps, hfind unk hunk, hadd ps _ _ hp]

/-- C87: when the symbol of a word is not valid UTF-8 (and the words before it are segmented and their
pieces have labels), there is no transducer. -/
theorem C87_invalid (vocab : List (List Nat)) (pre s : List Nat) (hpre : isValid pre = true) (w : Nat)
    (before after : List Nat) (wordSyms pieceSyms : SymTab) (unk : List Nat)
    (hwords : ∀ w ∈ before, ∃ s, wordSyms[w]? = some s ∧ isValid s = true) (hunk : unk ∈ pieceSyms)
    (hs : wordSyms[w]? = some s) (hinv : isValid s = false) :
    wordpieceTransducer (mkSegmenter pre vocab) (before ++ w :: after) wordSyms pieceSyms unk =
      .error .invalidUtf8 := by
  obtain ⟨u, hu⟩ : ∃ u, pieceSyms.find unk = some u := by
    unfold SymTab.find
    exact Option.isSome_iff_exists.1 (List.isSome_idxOf?.2 hunk)
  have hadd : ∀ (ps : List (List Nat)) (f : VFst Nat) (c : Nat), ∃ r, addPieces pieceSyms (some u) ps f c = .ok r := by
    intro ps
    induction ps with
    | nil => intro f c; exact ⟨_, rfl⟩
    | cons p ps ih =>
      intro f c
      simp only [addPieces]
      cases hq : pieceLabel pieceSyms (some u) p with
      | error e =>
        unfold pieceLabel at hq
        cases hx : pieceSyms.find p <;> rw [hx] at hq <;> cases hq
      | ok l => exact ih _ _
  have hall : ∀ (ws : List Nat) (f : VFst Nat), (∀ w ∈ ws, ∃ s, wordSyms[w]? = some s ∧ isValid s = true) →
      addWordPaths (mkSegmenter pre vocab) wordSyms pieceSyms (some u) (ws ++ w :: after) f = .error .invalidUtf8 := by
    intro ws
    induction ws with
    | nil =>
      intro f _
      simp only [List.nil_append, addWordPaths, piecesOf, hs, Option.getD_some, (C33_invalid _ s s).2 hinv]
    | cons x ws ih =>
      intro f h
      obtain ⟨t, h1, h2⟩ := h x (by simp)
      obtain ⟨_, segs, _, h3, _⟩ := C33_text vocab pre t hpre h2
      simp only [List.cons_append, addWordPaths, piecesOf, h1, Option.getD_some, h3]
      obtain ⟨⟨g, c⟩, hr⟩ := hadd segs.flatten f 0
      rw [hr]
      exact ih _ (fun y hy => h y (by simp [hy]))
  unfold wordpieceTransducer
  rw [hu]
  exact hall before _ hwords

/-- The word 2 is the byte FF. -/
example : isValid [255] = false ∧
    (wordpieceTransducer (mkSegmenter [] []) [1, 2] [[60], [97], [255]] [[60], [117]] [117]).toOption.isNone = true := by
  constructor <;> rfl

/-- One word `abc` (label 1), segmented into `▁ab` (label 1) and `c`, which is not known (label 2). -/
example : isValid [97, 98, 99] = true ∧
    (wordpieceTransducer (mkSegmenter [] [[97, 98], [98, 99], [0xE2, 0x96, 0x81, 97, 98]]) [1]
      [[60], [97, 98, 99]] [[60], [0xE2, 0x96, 0x81, 97, 98], [117]] [117]).toOption.map (·.arcs) =
    some [[⟨0, 1, 0, 1⟩], [⟨0, 2, 0, 2⟩], [⟨1, 0, 0, 0⟩]] := by
  constructor <;> rfl

end Nisaba.Props
