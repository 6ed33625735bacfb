import Verif.Lemmas.Extract
/-!
# Lemmas on the reader of the k-best extractor
-/
namespace Nisaba.Extract
open Nisaba
open Nisaba.ErrorRate (Err strJoin)

variable {κ : Type}

/-- A text as written to the input of the extractor: its index and, for every position, the lines
(input word and candidate) of that position. -/
structure Source (κ : Type) where
  idx : Int
  positions : List (List (Str × (Str × κ)))

/-- Lines of the positions from `p` on. -/
def linesFrom (idx : Int) : Nat → List (List (Str × (Str × κ))) → List (Line κ)
  | _, [] => []
  | p, ls :: rest => ls.map (fun x => ⟨idx, p, x.1, x.2⟩) ++ linesFrom idx (p + 1) rest

/-- The lines of a text. -/
def Source.lines (t : Source κ) : List (Line κ) := linesFrom t.idx 0 t.positions

/-- The candidates of every position. -/
def Source.cands (t : Source κ) : List (List (Str × κ)) := t.positions.map (·.map (·.2))

/-- Input word of a position: that of its first line. -/
def inputOf (ls : List (Str × (Str × κ))) : Str := ((ls.head?).map (·.1)).getD []

/-- The input words. -/
def Source.inputs (t : Source κ) : List Str := t.positions.map inputOf

/-- A text with a non-negative index, with positions that all have candidates. -/
def Source.Ok (t : Source κ) : Prop := 0 ≤ t.idx ∧ t.positions ≠ [] ∧ ∀ ls ∈ t.positions, ls ≠ []

theorem linesFrom_append (idx : Int) (p : Nat) (a b : List (List (Str × (Str × κ)))) :
    linesFrom idx p (a ++ b) = linesFrom idx p a ++ linesFrom idx (p + a.length) b := by
  induction a generalizing p with
  | nil => simp [linesFrom]
  | cons x a ih => simp [linesFrom, ih, Nat.add_comm, Nat.add_left_comm]

theorem addLast_snoc (A : List (List (Str × κ))) (a : List (Str × κ)) (c : Str × κ) :
    addLast (A ++ [a]) c = A ++ [a ++ [c]] := by
  unfold addLast
  have h : (A ++ [a]).length - 1 = A.length := by simp
  rw [h]
  clear h
  induction A with
  | nil => rfl
  | cons b A ih => simpa [List.modify_succ_cons] using ih

/-- Lines of a position that has begun. -/
theorem fold_position (ls : List (Str × (Str × κ))) (r : Reader κ) (A : List (List (Str × κ)))
    (a : List (Str × κ)) (hA : r.strArcs = A ++ [a]) (hp : r.lastPos = (A.length : Int)) :
    (ls.map (fun x => (⟨r.lastIdx, (A.length : Nat), x.1, x.2⟩ : Line κ))).foldlM readerStep r =
      .ok { r with strArcs := A ++ [a ++ ls.map (·.2)] } := by
  induction ls generalizing r a with
  | nil => simp [← hA, pure, Except.pure]
  | cons x ls ih =>
    have hstep : readerStep r ⟨r.lastIdx, (A.length : Nat), x.1, x.2⟩ =
        .ok { r with strArcs := A ++ [a ++ [x.2]] } := by
      simp [readerStep, hp, hA, addLast_snoc]
    rw [List.map_cons, List.foldlM_cons, hstep]
    have := ih { r with strArcs := A ++ [a ++ [x.2]] } (a ++ [x.2]) rfl hp
    simp only [bind, Except.bind]
    rw [this]
    simp

/-- The following positions. -/
theorem fold_positions (ps : List (List (Str × (Str × κ)))) (hps : ∀ ls ∈ ps, ls ≠ []) (r : Reader κ)
    (hp : r.lastPos + 1 = (r.strArcs.length : Int)) :
    (linesFrom r.lastIdx r.strArcs.length ps).foldlM readerStep r =
      .ok { r with
        strArcs := r.strArcs ++ ps.map (·.map (·.2))
        inputWords := r.inputWords ++ ps.map inputOf
        lastPos := r.lastPos + ps.length } := by
  induction ps generalizing r with
  | nil => simp [linesFrom, pure, Except.pure]
  | cons ls ps ih =>
    cases ls with
    | nil => exact absurd rfl (hps [] (by simp))
    | cons x ls =>
      have hstep : readerStep r ⟨r.lastIdx, (r.strArcs.length : Nat), x.1, x.2⟩ =
          .ok { r with strArcs := r.strArcs ++ [[x.2]], inputWords := r.inputWords ++ [x.1], lastPos := (r.strArcs.length : Int) } := by
        have hne : ((r.strArcs.length : Nat) : Int) ≠ r.lastPos := by omega
        simp [readerStep, hne, addLast_snoc]
      rw [linesFrom, List.map_cons, List.cons_append, List.foldlM_cons, hstep]
      simp only [bind, Except.bind]
      rw [List.foldlM_append]
      have h1 := fold_position ls { r with strArcs := r.strArcs ++ [[x.2]], inputWords := r.inputWords ++ [x.1], lastPos := (r.strArcs.length : Int) } r.strArcs [x.2] rfl rfl
      simp only at h1
      rw [h1]
      simp only [bind, Except.bind]
      have h2 := ih (fun l hl => hps l (by simp [hl]))
        { r with strArcs := r.strArcs ++ [[x.2] ++ ls.map (·.2)], inputWords := r.inputWords ++ [x.1], lastPos := (r.strArcs.length : Int) } (by simp)
      simp only [List.length_append, List.length_cons, List.length_nil] at h2
      rw [h2]
      simp only [List.append_assoc, List.cons_append, List.nil_append, List.map_cons, inputOf,
        List.head?_cons, Option.map_some, Option.getD_some, List.length_cons, Except.ok.injEq]
      congr 1
      push_cast
      omega

/-- What the reader holds after the lines of some texts and a last text. -/
def After (ss : List (Source κ)) (t : Source κ) : Reader κ where
  arcs := ss.map Source.cands
  words := ss.map (fun s => strJoin [32] s.inputs)
  index := ss.map Source.idx
  strArcs := t.cands
  inputWords := t.inputs
  lastIdx := t.idx
  lastPos := (t.positions.length : Int) - 1

/-- State in which a new text begins. -/
def Fresh (r : Reader κ) (idx : Int) (arcs : List (List (List (Str × κ)))) (words : List Str)
    (index : List Int) : Prop :=
  (r.lastIdx = -1 ∧ r.strArcs = [] ∧ r.inputWords = [] ∧ r.lastPos = -1 ∧ 0 ≤ idx ∧
    arcs = r.arcs ∧ words = r.words ∧ index = r.index) ∨
  (0 ≤ r.lastIdx ∧ idx ≠ r.lastIdx ∧ arcs = r.flush.arcs ∧ words = r.flush.words ∧ index = r.flush.index)

theorem fold_text (t : Source κ) (ht : t.Ok) (r : Reader κ) (arcs : List (List (List (Str × κ))))
    (words : List Str) (index : List Int) (h : Fresh r t.idx arcs words index) :
    t.lines.foldlM readerStep r = .ok
      { arcs := arcs, words := words, index := index, strArcs := t.cands, inputWords := t.inputs
        lastIdx := t.idx, lastPos := (t.positions.length : Int) - 1 } := by
  obtain ⟨idx, ps⟩ := t
  obtain ⟨hidx, hne, hps⟩ := ht
  cases ps with
  | nil => exact absurd rfl hne
  | cons ls ps =>
    cases ls with
    | nil => exact absurd rfl (hps [] (by simp))
    | cons x ls =>
      simp only at hidx h
      have hstep : readerStep r ⟨idx, 0, x.1, x.2⟩ = .ok
          { arcs := arcs, words := words, index := index, strArcs := [[x.2]], inputWords := [x.1]
            lastIdx := idx, lastPos := 0 } := by
        rcases h with ⟨h1, h2, h3, h4, h5, rfl, rfl, rfl⟩ | ⟨h1, h2, rfl, rfl, rfl⟩
        · have : idx ≠ -1 := by omega
          simp [readerStep, h1, h2, h3, this, addLast]
        · simp [readerStep, h1, h2, addLast, Reader.flush]
      simp only [Source.lines, linesFrom, List.map_cons, List.cons_append]
      rw [List.foldlM_cons]
      show (readerStep r ⟨idx, 0, x.1, x.2⟩ >>= _) = _
      rw [hstep]
      simp only [bind, Except.bind]
      rw [List.foldlM_append]
      have h1 := fold_position ls
        { arcs := arcs, words := words, index := index, strArcs := [[x.2]], inputWords := [x.1]
          lastIdx := idx, lastPos := 0 } [] [x.2] rfl rfl
      simp only [List.length_nil, List.nil_append] at h1
      rw [h1]
      simp only [bind, Except.bind]
      have h2 := fold_positions ps (fun l hl => hps l (by simp [hl]))
        { arcs := arcs, words := words, index := index, strArcs := [[x.2] ++ ls.map (·.2)], inputWords := [x.1]
          lastIdx := idx, lastPos := 0 } (by simp)
      simp only [List.length_cons, List.length_nil] at h2
      rw [h2]
      simp [Source.cands, Source.inputs, inputOf]

/-- Neighbouring texts have different indices. -/
def Distinct (ss : List (Source κ)) : Prop := ss.IsChain (fun a b => a.idx ≠ b.idx)

theorem fold_texts (ss : List (Source κ)) (t : Source κ) (hok : ∀ s ∈ ss ++ [t], s.Ok)
    (hd : Distinct (ss ++ [t])) :
    ((ss ++ [t]).flatMap Source.lines).foldlM readerStep {} = .ok (After ss t) := by
  induction ss using List.reverseRecOn generalizing t with
  | nil =>
    simp only [List.nil_append, List.flatMap_cons, List.flatMap_nil, List.append_nil]
    have ht := hok t (by simp)
    rw [fold_text t ht {} [] [] [] (.inl ⟨rfl, rfl, rfl, rfl, ht.1, rfl, rfl, rfl⟩)]
    rfl
  | append_singleton ss s ih =>
    have h1 := ih s (fun x hx => hok x (by simp at hx ⊢; tauto)) (by
      have hd' : List.IsChain (fun a b : Source κ => a.idx ≠ b.idx) ((ss ++ [s]) ++ [t]) := hd
      exact (List.isChain_append.1 hd').1)
    rw [List.flatMap_append, List.foldlM_append, h1]
    simp only [bind, Except.bind, List.flatMap_cons, List.flatMap_nil, List.append_nil]
    have hs := hok s (by simp)
    have ht := hok t (by simp)
    have hne : s.idx ≠ t.idx := by
      have hd' : List.IsChain (fun a b : Source κ => a.idx ≠ b.idx) ((ss ++ [s]) ++ [t]) := hd
      exact (List.isChain_append.1 hd').2.2 s (by simp) t (by simp)
    rw [fold_text t ht (After ss s) _ _ _ (.inr ⟨hs.1, fun e => hne e.symm, rfl, rfl, rfl⟩)]
    simp [After, Reader.flush]

/-- One more line that is accepted extends the last position, begins a position or begins a text. -/
theorem step_inv (ss : List (Source κ)) (t : Source κ) (hok : ∀ s ∈ ss ++ [t], s.Ok)
    (hd : Distinct (ss ++ [t])) (l : Line κ) (hl : 0 ≤ l.idx) (r : Reader κ)
    (h : readerStep (After ss t) l = .ok r) :
    ∃ ss' t', (∀ s ∈ ss' ++ [t'], s.Ok) ∧ Distinct (ss' ++ [t']) ∧
      (ss' ++ [t']).flatMap Source.lines = (ss ++ [t]).flatMap Source.lines ++ [l] := by
  obtain ⟨idx, pos, inp, cand⟩ := l
  have ht := hok t (by simp)
  have hlen : 0 < t.positions.length := List.length_pos_iff.2 ht.2.1
  simp only at hl
  by_cases hidx : idx = t.idx
  · subst hidx
    by_cases hpos : pos = (t.positions.length : Int) - 1
    · subst hpos
      obtain ⟨ini, las, hsplit⟩ : ∃ ini las, t.positions = ini ++ [las] :=
        ⟨t.positions.dropLast, t.positions.getLast ht.2.1, (List.dropLast_append_getLast ht.2.1).symm⟩
      refine ⟨ss, ⟨t.idx, ini ++ [las ++ [(inp, cand)]]⟩, ?_, ?_, ?_⟩
      · intro s hs
        rcases List.mem_append.1 hs with hs | hs
        · exact hok s (by simp [hs])
        · simp only [List.mem_singleton] at hs
          subst hs
          refine ⟨ht.1, by simp, ?_⟩
          intro ls hls
          simp only [List.mem_append, List.mem_singleton] at hls
          rcases hls with hls | rfl
          · exact ht.2.2 ls (by rw [hsplit]; simp [hls])
          · simp
      · unfold Distinct at hd ⊢
        rw [List.isChain_append] at hd ⊢
        refine ⟨hd.1, by simp, ?_⟩
        intro x hx y hy
        simp only [List.head?_cons, Option.mem_def, Option.some.injEq] at hy
        subst hy
        exact hd.2.2 x hx t (by simp)
      · simp only [List.flatMap_append, List.flatMap_cons, List.flatMap_nil, List.append_nil,
          List.append_assoc, Source.lines, linesFrom_append, hsplit, linesFrom, List.map_append,
          List.map_cons, List.map_nil, Nat.zero_add]
        simp
    · have hst : (After ss t).lastPos = (t.positions.length : Int) - 1 := rfl
      simp only [readerStep] at h
      have e1 : ¬ (t.idx ≠ (After ss t).lastIdx ∧ (After ss t).lastIdx ≥ 0) := by simp [After]
      have e2 : t.idx ≠ (After ss t).lastIdx ∨ pos ≠ (After ss t).lastPos := .inr (by rw [hst]; exact hpos)
      rw [if_neg e1, if_pos e2] at h
      have hp : pos = (t.positions.length : Int) := by
        by_contra hc
        rw [if_pos (by
          simp only [After, Source.cands, List.length_append, List.length_map, List.length_cons,
            List.length_nil]
          push_cast; omega)] at h
        cases h
      subst hp
      refine ⟨ss, ⟨t.idx, t.positions ++ [[(inp, cand)]]⟩, ?_, ?_, ?_⟩
      · intro s hs
        rcases List.mem_append.1 hs with hs | hs
        · exact hok s (by simp [hs])
        · simp only [List.mem_singleton] at hs
          subst hs
          refine ⟨ht.1, by simp, ?_⟩
          intro ls hls
          simp only [List.mem_append, List.mem_singleton] at hls
          rcases hls with hls | rfl
          · exact ht.2.2 ls hls
          · simp
      · unfold Distinct at hd ⊢
        rw [List.isChain_append] at hd ⊢
        refine ⟨hd.1, by simp, ?_⟩
        intro x hx y hy
        simp only [List.head?_cons, Option.mem_def, Option.some.injEq] at hy
        subst hy
        exact hd.2.2 x hx t (by simp)
      · simp [Source.lines, linesFrom_append, linesFrom]
  · have hst : (After ss t).lastIdx = t.idx := rfl
    simp only [readerStep] at h
    have e1 : idx ≠ (After ss t).lastIdx ∧ (After ss t).lastIdx ≥ 0 := ⟨by rw [hst]; exact hidx, ht.1⟩
    have e2 : idx ≠ (After ss t).lastIdx ∨ pos ≠ (After ss t).lastPos := .inl e1.1
    rw [if_pos e1, if_pos e2] at h
    have hp : pos = 0 := by
      by_contra hc
      rw [if_pos (by simp; omega)] at h
      cases h
    subst hp
    refine ⟨ss ++ [t], ⟨idx, [[(inp, cand)]]⟩, ?_, ?_, ?_⟩
    · intro s hs
      rcases List.mem_append.1 hs with hs | hs
      · exact hok s hs
      · simp only [List.mem_singleton] at hs
        subst hs
        exact ⟨hl, by simp, by simp⟩
    · unfold Distinct at hd ⊢
      rw [List.isChain_append]
      refine ⟨hd, by simp, ?_⟩
      intro x hx y hy
      simp only [List.getLast?_append, List.getLast?_singleton, Option.some_or, Option.mem_def,
        Option.some.injEq, List.head?_cons] at hx hy
      subst hx hy
      exact fun e => hidx e.symm
    · simp [Source.lines, linesFrom]

theorem fold_inv (lines : List (Line κ)) (hne : lines ≠ []) (hpos : ∀ l ∈ lines, 0 ≤ l.idx) (r : Reader κ)
    (h : lines.foldlM readerStep {} = .ok r) :
    ∃ ss t, (∀ s ∈ ss ++ [t], s.Ok) ∧ Distinct (ss ++ [t]) ∧
      (ss ++ [t]).flatMap Source.lines = lines := by
  induction lines using List.reverseRecOn generalizing r with
  | nil => exact absurd rfl hne
  | append_singleton lines l ih =>
    rw [List.foldlM_append] at h
    cases hr : lines.foldlM readerStep {} with
    | error e => rw [hr] at h; cases h
    | ok r0 =>
      rw [hr] at h
      have h' : readerStep r0 l = .ok r := by
        cases hx : readerStep r0 l with
        | error e => simp [hx, bind, Except.bind] at h
        | ok r1 => simpa [hx, bind, Except.bind, pure, Except.pure] using h
      have hl := hpos l (by simp)
      cases lines with
      | nil =>
        have : r0 = {} := by simpa [pure, Except.pure, eq_comm] using hr
        subst this
        obtain ⟨idx, pos, inp, cand⟩ := l
        simp only at hl
        have hp : pos = 0 := by
          by_contra hc
          have : idx ≠ -1 := by omega
          have hc' : ¬ (1 : Int) = pos + 1 := by omega
          simp [readerStep, this, hc'] at h'
        subst hp
        refine ⟨[], ⟨idx, [[(inp, cand)]]⟩, ?_, by simp [Distinct], by simp [Source.lines, linesFrom]⟩
        intro s hs
        simp only [List.nil_append, List.mem_singleton] at hs
        subst hs
        exact ⟨hl, by simp, by simp⟩
      | cons l0 lines =>
        obtain ⟨ss, t, h1, h2, h3⟩ := ih (by simp) (fun x hx => hpos x (by simp only [List.mem_append]; exact .inl hx)) r0 hr
        have := fold_texts ss t h1 h2
        rw [h3, hr] at this
        cases this
        obtain ⟨ss', t', k1, k2, k3⟩ := step_inv ss t h1 h2 l hl r h'
        exact ⟨ss', t', k1, k2, by rw [k3, h3]⟩

end Nisaba.Extract
