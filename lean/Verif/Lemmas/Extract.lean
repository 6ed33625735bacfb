import Verif.Model.Extract
import Verif.Lemmas.Kbest
import Verif.Props.Softmax
/-!
# Lemmas on the word lattice of the k-best extractor
-/
namespace Nisaba.Extract
open Nisaba Nisaba.Fst
open Nisaba.ErrorRate (Err strJoin modify_append_last)

/-- One candidate chosen at every position: the places in the lists and the candidates. -/
inductive Pick {κ : Type} : List (List (Str × κ)) → List Nat → List (Str × κ) → Prop
  | nil : Pick [] [] []
  | cons {l ls j js c cs} : l[j]? = some c → Pick ls js cs → Pick (l :: ls) (j :: js) (c :: cs)

/-- Score of a choice. -/
noncomputable def sumCost (cs : List RCand) : ℝ := (cs.map (·.2)).sum

/-- Label of a word. -/
def lab (T : SymTab) (w : Str) : Nat := T.idxOf w

/-- Arcs of a position whose words lead to state `next`. -/
def row (T : SymTab) (next : Nat) (l : List RCand) : List (Arc ℝ) :=
  l.map (fun c => ⟨lab T c.1, lab T c.1, c.2, next⟩)

/-- Arcs of the lattice whose first state is `n`. -/
def rows (T : SymTab) : Nat → List (List RCand) → List (List (Arc ℝ))
  | _, [] => [[]]
  | n, l :: ls => row T (n + 1) l :: rows T (n + 1) ls

theorem lab_append {T U : SymTab} {w : Str} (h : w ∈ T) : lab (T ++ U) w = lab T w :=
  List.idxOf_append_of_mem h

theorem find_of_mem {T : SymTab} {w : Str} (h : w ∈ T) : T.find w = some (lab T w) := by
  unfold SymTab.find lab
  induction T with
  | nil => simp at h
  | cons a T ih =>
    rw [List.idxOf?_cons, List.idxOf_cons]
    by_cases e : a = w
    · simp [e]
    · have e' : (a == w) = false := by simpa using e
      rw [e']
      have hm : w ∈ T := by
        rcases List.mem_cons.1 h with h | h
        · exact absurd h.symm e
        · exact h
      simp [ih hm]

theorem find_not_mem {T : SymTab} {w : Str} (h : w ∉ T) : T.find w = none := by
  unfold SymTab.find
  simpa using h

theorem lab_new {T : SymTab} {w : Str} (h : w ∉ T) : lab (T ++ [w]) w = T.length := by
  unfold lab
  rw [List.idxOf_append_of_notMem h]
  simp

/-- The table grows. -/
def Ext (T U : SymTab) : Prop := ∃ V, U = T ++ V

theorem Ext.refl (T : SymTab) : Ext T T := ⟨[], by simp⟩

theorem Ext.trans {T U V : SymTab} (h : Ext T U) (h' : Ext U V) : Ext T V := by
  obtain ⟨A, rfl⟩ := h
  obtain ⟨B, rfl⟩ := h'
  exact ⟨A ++ B, by simp⟩

theorem Ext.mem {T U : SymTab} (h : Ext T U) {w : Str} (hw : w ∈ T) : w ∈ U := by
  obtain ⟨A, rfl⟩ := h
  simp [hw]

theorem Ext.lab {T U : SymTab} (h : Ext T U) {w : Str} (hw : w ∈ T) : lab U w = lab T w := by
  obtain ⟨A, rfl⟩ := h
  exact lab_append hw

theorem row_ext {T U : SymTab} (h : Ext T U) {l : List RCand} (hl : ∀ c ∈ l, c.1 ∈ T) (n : Nat) :
    row U n l = row T n l := by
  unfold row
  apply List.map_congr_left
  intro c hc
  rw [h.lab (hl c hc)]

theorem addWords_eq (l : List RCand) (T : SymTab) (f : VFst ℝ) (pre : List (List (Arc ℝ)))
    (A : List (Arc ℝ)) (hf : f.arcs = pre ++ [A] ++ [[]]) (hT : T.Nodup) :
    ∃ U, Ext T U ∧ U.Nodup ∧ (∀ c ∈ l, c.1 ∈ U) ∧
      addWords pre.length (pre.length + 1) l T f =
        (U, { f with arcs := pre ++ [A ++ row U (pre.length + 1) l] ++ [[]] }) := by
  induction l generalizing T f A with
  | nil => exact ⟨T, Ext.refl T, hT, by simp, by simp [addWords, row, ← hf]⟩
  | cons c l ih =>
    have step : ∀ a : Arc ℝ, (f.addArc pre.length a).arcs = pre ++ [A ++ [a]] ++ [[]] := by
      intro a
      simp only [VFst.addArc, hf]
      rw [modify_append_last]
    by_cases hm : c.1 ∈ T
    · obtain ⟨U, h1, h2, h3, h4⟩ := ih T
        (f.addArc pre.length ⟨lab T c.1, lab T c.1, c.2, pre.length + 1⟩) _ (step _) hT
      refine ⟨U, h1, h2, ?_, ?_⟩
      · intro d hd
        rcases List.mem_cons.1 hd with rfl | hd
        · exact h1.mem hm
        · exact h3 d hd
      · simp only [addWords, find_of_mem hm]
        rw [h4]
        simp [VFst.addArc, row, h1.lab hm]
    · have hT' : (T ++ [c.1]).Nodup := by
        rw [List.nodup_append]
        refine ⟨hT, by simp, ?_⟩
        intro a ha b hb e
        simp at hb
        exact hm (by rw [← hb, ← e]; exact ha)
      obtain ⟨U, h1, h2, h3, h4⟩ := ih (T ++ [c.1])
        (f.addArc pre.length ⟨T.length, T.length, c.2, pre.length + 1⟩) _ (step _) hT'
      have hext : Ext T (T ++ [c.1]) := ⟨_, rfl⟩
      refine ⟨U, hext.trans h1, h2, ?_, ?_⟩
      · intro d hd
        rcases List.mem_cons.1 hd with rfl | hd
        · exact h1.mem (by simp)
        · exact h3 d hd
      · simp only [addWords, find_not_mem hm, SymTab.add]
        rw [h4]
        have : lab U c.1 = T.length := by rw [h1.lab (by simp), lab_new hm]
        simp [VFst.addArc, row, this]

theorem rows_ext {T U : SymTab} (h : Ext T U) {ls : List (List RCand)} (hl : ∀ l ∈ ls, ∀ c ∈ l, c.1 ∈ T)
    (n : Nat) : rows U n ls = rows T n ls := by
  induction ls generalizing n with
  | nil => rfl
  | cons l ls ih =>
    rw [rows, rows, row_ext h (hl l (by simp)), ih (fun x hx => hl x (by simp [hx]))]

theorem addPositions_eq (ls : List (List RCand)) (T : SymTab) (f : VFst ℝ) (pre : List (List (Arc ℝ)))
    (hf : f.arcs = pre ++ [[]]) (hT : T.Nodup) :
    ∃ U, Ext T U ∧ U.Nodup ∧ (∀ l ∈ ls, ∀ c ∈ l, c.1 ∈ U) ∧
      addPositions ls T f pre.length =
        (U, { f with arcs := pre ++ rows U pre.length ls }, pre.length + ls.length) := by
  induction ls generalizing T f pre with
  | nil => exact ⟨T, Ext.refl T, hT, by simp, by simp [addPositions, rows, ← hf]⟩
  | cons l ls ih =>
    have h1 : f.addState.2 = pre.length + 1 := by simp [VFst.addState, hf]
    have h2 : f.addState.1.arcs = pre ++ [[]] ++ [[]] := by simp [VFst.addState, hf]
    obtain ⟨U, e1, n1, m1, q1⟩ := addWords_eq l T f.addState.1 pre [] h2 hT
    obtain ⟨V, e2, n2, m2, q2⟩ := ih U
      { f.addState.1 with arcs := pre ++ [[] ++ row U (pre.length + 1) l] ++ [[]] }
      (pre ++ [row U (pre.length + 1) l]) (by simp) n1
    refine ⟨V, e1.trans e2, n2, ?_, ?_⟩
    · intro l' hl'
      rcases List.mem_cons.1 hl' with rfl | hl'
      · exact fun c hc => e2.mem (m1 c hc)
      · exact m2 l' hl'
    · simp only [List.length_append, List.length_cons, List.length_nil] at q2
      simp only [addPositions, h1]
      rw [q1]
      simp only
      rw [q2]
      simp [rows, VFst.addState, Nat.add_assoc, Nat.add_comm, row_ext e2 m1]

/-- The lattice: chain of positions, labels from a table without repetitions. -/
theorem makeLattice_eq (ls : List (List RCand)) (T : SymTab) (hT : T.Nodup) :
    ∃ U, Ext T U ∧ U.Nodup ∧ (∀ l ∈ ls, ∀ c ∈ l, c.1 ∈ U) ∧
      makeLattice ls T = (U, ⟨rows U 0 ls, some 0, [ls.length]⟩) := by
  obtain ⟨U, h1, h2, h3, h4⟩ := addPositions_eq ls T ((({} : VFst ℝ).addState.1).setStart 0) [] rfl hT
  refine ⟨U, h1, h2, h3, ?_⟩
  simp only [List.length_nil, List.nil_append, Nat.zero_add] at h4
  have h0 : (({} : VFst ℝ).addState).2 = 0 := rfl
  simp only [makeLattice]
  rw [h0, h4]
  rfl

theorem rows_getElem (T : SymTab) (n : Nat) (ls : List (List RCand)) (s : Nat) (as : List (Arc ℝ)) :
    (rows T n ls)[s]? = some as ↔
      (∃ l, ls[s]? = some l ∧ as = row T (n + s + 1) l) ∨ (s = ls.length ∧ as = []) := by
  induction ls generalizing n s with
  | nil => cases s with
    | zero => simp [rows, eq_comm]
    | succ s => simp [rows]
  | cons l ls ih => cases s with
    | zero => simp [rows, eq_comm]
    | succ s =>
      simp only [rows, List.getElem?_cons_succ, ih, List.length_cons]
      have : n + 1 + s + 1 = n + (s + 1) + 1 := by omega
      simp only [this]
      constructor
      · rintro (h | ⟨h, h'⟩)
        · exact .inl h
        · exact .inr ⟨by omega, h'⟩
      · rintro (h | ⟨h, h'⟩)
        · exact .inl h
        · exact .inr ⟨by omega, h'⟩

/-- The path of a choice. -/
def pathOf (T : SymTab) : Nat → List Nat → List RCand → List (Nat × Arc ℝ)
  | n, j :: js, c :: cs => (j, ⟨lab T c.1, lab T c.1, c.2, n + 1⟩) :: pathOf T (n + 1) js cs
  | _, _, _ => []

theorem arcPath_iff (T : SymTab) (done ls : List (List RCand)) (p : List (Nat × Arc ℝ)) :
    ArcPath ⟨rows T 0 (done ++ ls), some 0, [(done ++ ls).length]⟩ done.length p ↔
      ∃ js cs, Pick ls js cs ∧ p = pathOf T done.length js cs := by
  induction ls generalizing done p with
  | nil =>
    rw [List.append_nil]
    constructor
    · intro h
      cases h with
      | nil _ => exact ⟨[], [], .nil, rfl⟩
      | cons ha hi _ =>
        rcases (rows_getElem _ _ _ _ _).1 ha with ⟨l, hl, _⟩ | ⟨_, rfl⟩
        · rw [List.getElem?_eq_none (Nat.le_refl _)] at hl
          cases hl
        · simp at hi
    · rintro ⟨js, cs, h, rfl⟩
      cases h
      exact .nil (by simp)
  | cons l ls ih =>
    have e : done ++ l :: ls = (done ++ [l]) ++ ls := by simp
    have hl0 : (done ++ l :: ls)[done.length]? = some l := by simp
    constructor
    · intro h
      cases h with
      | nil hf => simp at hf
      | @cons _ as i a p ha hi hp =>
        rcases (rows_getElem _ _ _ _ _).1 ha with ⟨l', hl, rfl⟩ | ⟨hlen, _⟩
        · rw [hl0] at hl
          cases hl
          unfold row at hi
          rw [List.getElem?_map] at hi
          cases hj : l[i]? with
          | none => rw [hj] at hi; cases hi
          | some c =>
            rw [hj] at hi
            simp only [Option.map_some, Option.some.injEq, Nat.zero_add] at hi
            subst hi
            rw [e] at hp
            obtain ⟨js, cs, hc, rfl⟩ := (ih (done ++ [l]) _).1 (by simpa using hp)
            exact ⟨i :: js, c :: cs, .cons hj hc, by simp [pathOf]⟩
        · simp at hlen
    · rintro ⟨js, cs, h, rfl⟩
      cases h with
      | @cons _ _ j js c cs hj hc =>
        refine .cons (a := ⟨lab T c.1, lab T c.1, c.2, done.length + 1⟩)
          ((rows_getElem _ _ _ _ _).2 (.inl ⟨l, hl0, rfl⟩)) ?_ ?_
        · unfold row
          rw [List.getElem?_map, hj]
          simp
        · have := (ih (done ++ [l]) _).2 ⟨_, _, hc, rfl⟩
          rw [← e] at this
          simpa using this

theorem accepting_iff (T : SymTab) (ls : List (List RCand)) (p : List (Nat × Arc ℝ)) :
    Accepting ⟨rows T 0 ls, some 0, [ls.length]⟩ p ↔ ∃ js cs, Pick ls js cs ∧ p = pathOf T 0 js cs := by
  have := arcPath_iff T [] ls p
  rw [List.nil_append] at this
  rw [List.length_nil] at this
  rw [← this]
  constructor
  · rintro ⟨s, hs, hp⟩
    cases hs
    exact hp
  · intro hp
    exact ⟨0, rfl, hp⟩

theorem Pick.length {κ : Type} {ls : List (List (Str × κ))} {js : List Nat} {cs : List (Str × κ)}
    (h : Pick ls js cs) : js.length = ls.length ∧ cs.length = ls.length := by
  induction h with
  | nil => simp
  | cons _ _ ih => simp [ih.1, ih.2]

theorem Pick.unique {κ : Type} {ls : List (List (Str × κ))} {js : List Nat} {cs ds : List (Str × κ)}
    (h : Pick ls js cs) (h' : Pick ls js ds) : cs = ds := by
  induction h generalizing ds with
  | nil => cases h'; rfl
  | cons hj _ ih =>
    cases h' with
    | cons hj' h' => rw [ih h']; rw [hj] at hj'; cases hj'; rfl

theorem cost_pathOf {T : SymTab} {ls : List (List RCand)} {js : List Nat} {cs : List RCand}
    (h : Pick ls js cs) (n : Nat) : cost (pathOf T n js cs) = sumCost cs := by
  induction h generalizing n with
  | nil => rfl
  | cons _ _ ih =>
    have := ih (n + 1)
    simp only [cost, pathOf, sumCost, List.map_cons, List.sum_cons] at this ⊢
    rw [this]

theorem places_pathOf {T : SymTab} {ls : List (List RCand)} {js : List Nat} {cs : List RCand}
    (h : Pick ls js cs) (n : Nat) : (pathOf T n js cs).map (·.1) = js := by
  induction h generalizing n with
  | nil => rfl
  | cons _ _ ih => simp [pathOf, ih]

theorem Pick.mem {κ : Type} {ls : List (List (Str × κ))} {js : List Nat} {cs : List (Str × κ)}
    (h : Pick ls js cs) : ∀ c ∈ cs, ∃ l ∈ ls, c ∈ l := by
  induction h with
  | nil => simp
  | cons hj _ ih =>
    intro c hc
    rcases List.mem_cons.1 hc with rfl | hc
    · exact ⟨_, by simp, List.mem_of_getElem? hj⟩
    · obtain ⟨l, hl, hm⟩ := ih c hc
      exact ⟨l, by simp [hl], hm⟩

theorem symName_lab {T : SymTab} {w : Str} (h : w ∈ T) : symName T (lab T w) = w := by
  unfold symName lab
  rw [List.getElem?_eq_getElem (List.idxOf_lt_length_iff.2 h), List.getElem_idxOf]
  rfl

theorem lab_pos {T : SymTab} {w : Str} (hT : Ext [epsilonName] T) : lab T w > 0 ↔ w ≠ epsilonName := by
  obtain ⟨V, rfl⟩ := hT
  unfold lab
  rw [List.singleton_append, List.idxOf_cons]
  by_cases e : epsilonName = w
  · subst e; simp
  · have e' : (epsilonName == w) = false := by simpa using e
    rw [e']
    constructor
    · intro _ h; exact e h.symm
    · intro _; show 0 < _ + 1; omega

theorem words_pathOf {T : SymTab} (hT : Ext [epsilonName] T) {ls : List (List RCand)} {js : List Nat}
    {cs : List RCand} (h : Pick ls js cs) (hm : ∀ c ∈ cs, c.1 ∈ T) (n : Nat) :
    pathWords T (pathOf T n js cs) = (cs.map (·.1)).filter (fun w => w != epsilonName) := by
  induction h generalizing n with
  | nil => rfl
  | @cons l ls j js c cs hj h ih =>
    have ih := ih (fun x hx => hm x (by simp [hx])) (n + 1)
    unfold pathWords at ih ⊢
    simp only [pathOf, List.map_cons, List.filter_cons]
    by_cases e : c.1 = epsilonName
    · have : ¬ lab T c.1 > 0 := by rw [lab_pos hT]; simp [e]
      have e2 : (c.1 != epsilonName) = false := by simp [e]
      simp only [this, decide_false, Bool.false_eq_true, if_false, ih, e2]
    · have : lab T c.1 > 0 := by rw [lab_pos hT]; exact e
      have e2 : (c.1 != epsilonName) = true := by simp [e]
      simp only [this, decide_true, if_true, List.map_cons, ih, e2, symName_lab (hm c (by simp))]

/-- `best` lists `k` choices of least cost in order of cost, or all choices if there are fewer. -/
structure BestPicks (ls : List (List RCand)) (k : Nat) (best : List (List Nat × List RCand)) : Prop where
  pick : ∀ b ∈ best, Pick ls b.1 b.2
  nodup : (best.map (·.1)).Nodup
  sorted : best.Pairwise (fun a b => sumCost a.2 ≤ sumCost b.2)
  length : best.length ≤ k
  least : ∀ js cs, Pick ls js cs → js ∉ best.map (·.1) →
    best.length = k ∧ ∀ b ∈ best, sumCost b.2 ≤ sumCost cs

theorem pairwise_of_map {α β : Type} {f : α → β} {R : β → β → Prop} {l : List α}
    (h : (l.map f).Pairwise R) : l.Pairwise (fun a b => R (f a) (f b)) :=
  List.pairwise_map.1 h

theorem picks_of_paths {T : SymTab} {ls : List (List RCand)} {ps : List (List (Nat × Arc ℝ))}
    (h : ∀ p ∈ ps, Accepting ⟨rows T 0 ls, some 0, [ls.length]⟩ p) :
    ∃ best : List (List Nat × List RCand), (∀ b ∈ best, Pick ls b.1 b.2) ∧
      ps = best.map (fun b => pathOf T 0 b.1 b.2) := by
  induction ps with
  | nil => exact ⟨[], by simp, rfl⟩
  | cons p ps ih =>
    obtain ⟨best, h1, h2⟩ := ih (fun x hx => h x (by simp [hx]))
    obtain ⟨js, cs, hc, rfl⟩ := (accepting_iff T ls p).1 (h p (by simp))
    refine ⟨(js, cs) :: best, ?_, by rw [h2]; rfl⟩
    intro b hb
    rcases List.mem_cons.1 hb with rfl | hb
    · exact hc
    · exact h1 b hb

theorem places_map {T : SymTab} {ls : List (List RCand)} {best : List (List Nat × List RCand)}
    (h : ∀ b ∈ best, Pick ls b.1 b.2) :
    (best.map (fun b => pathOf T 0 b.1 b.2)).map (fun p => p.map (·.1)) = best.map (·.1) := by
  rw [List.map_map]
  apply List.map_congr_left
  intro b hb
  exact places_pathOf (h b hb) 0

theorem shortest_iff {T : SymTab} {ls : List (List RCand)} {k : Nat} {ps : List (List (Nat × Arc ℝ))} :
    NShortest ⟨rows T 0 ls, some 0, [ls.length]⟩ k ps ↔
      ∃ best, BestPicks ls k best ∧ ps = best.map (fun b => pathOf T 0 b.1 b.2) := by
  constructor
  · rintro ⟨h1, h2, h3, h4, h5⟩
    obtain ⟨best, hb, rfl⟩ := picks_of_paths h1
    rw [places_map hb] at h2
    refine ⟨best, ⟨hb, h2, ?_, by simpa using h3, ?_⟩, rfl⟩
    · refine List.Pairwise.imp_of_mem ?_ (pairwise_of_map h4)
      intro a b ha hb' hab
      rwa [cost_pathOf (hb a ha), cost_pathOf (hb b hb')] at hab
    · intro js cs hc hjs
      have := h5 (pathOf T 0 js cs) ((accepting_iff T ls _).2 ⟨js, cs, hc, rfl⟩) (by
        rw [places_map hb, places_pathOf hc]
        exact hjs)
      refine ⟨by simpa using this.1, ?_⟩
      intro b hb'
      have := this.2 _ (List.mem_map.2 ⟨b, hb', rfl⟩)
      rwa [cost_pathOf (hb b hb'), cost_pathOf hc] at this
  · rintro ⟨best, h, rfl⟩
    refine ⟨?_, ?_, by simpa using h.length, ?_, ?_⟩
    · intro p hp
      obtain ⟨b, hb, rfl⟩ := List.mem_map.1 hp
      exact (accepting_iff T ls _).2 ⟨_, _, h.pick b hb, rfl⟩
    · rw [places_map h.pick]
      exact h.nodup
    · rw [List.pairwise_map]
      refine List.Pairwise.imp_of_mem ?_ h.sorted
      intro a b ha hb hab
      rwa [cost_pathOf (h.pick a ha), cost_pathOf (h.pick b hb)]
    · intro q hq hnot
      obtain ⟨js, cs, hc, rfl⟩ := (accepting_iff T ls q).1 hq
      rw [places_map h.pick, places_pathOf hc] at hnot
      have := h.least js cs hc hnot
      refine ⟨by simpa using this.1, ?_⟩
      intro p hp
      obtain ⟨b, hb, rfl⟩ := List.mem_map.1 hp
      rw [cost_pathOf (h.pick b hb), cost_pathOf hc]
      exact this.2 b hb

theorem exists_enum {κ : Type} (ls : List (List (Str × κ))) : ∃ all : List (List Nat × List (Str × κ)),
    (∀ b ∈ all, Pick ls b.1 b.2) ∧ (all.map (·.1)).Nodup ∧
    ∀ js cs, Pick ls js cs → (js, cs) ∈ all := by
  induction ls with
  | nil => exact ⟨[([], [])], by simpa using Pick.nil, by simp, by rintro _ _ ⟨⟩; simp⟩
  | cons l ls ih =>
    obtain ⟨all, h1, h2, h3⟩ := ih
    refine ⟨(List.range l.length).flatMap (fun j =>
      match l[j]? with
      | none => []
      | some c => all.map (fun b => (j :: b.1, c :: b.2))), ?_, ?_, ?_⟩
    · intro b hb
      obtain ⟨j, _, hb⟩ := List.mem_flatMap.1 hb
      cases hj : l[j]? with
      | none => rw [hj] at hb; simp at hb
      | some c =>
        rw [hj] at hb
        obtain ⟨b', hb', rfl⟩ := List.mem_map.1 hb
        exact .cons hj (h1 b' hb')
    · rw [List.map_flatMap, List.Nodup, List.pairwise_flatMap]
      constructor
      · intro j _
        cases hj : l[j]? with
        | none => simp
        | some c =>
          simp only [List.map_map]
          rw [List.pairwise_map]
          exact (pairwise_of_map h2).imp (fun h e => h (by simpa using e))
      · refine List.Pairwise.imp ?_ List.nodup_range
        intro a b hab x hx y hy e
        cases ha : l[a]? with
        | none => rw [ha] at hx; simp at hx
        | some c =>
          cases hb : l[b]? with
          | none => rw [hb] at hy; simp at hy
          | some d =>
            rw [ha] at hx; rw [hb] at hy
            simp only [List.map_map, List.mem_map, Function.comp] at hx hy
            obtain ⟨_, _, rfl⟩ := hx
            obtain ⟨_, _, rfl⟩ := hy
            exact hab (by simpa using (List.cons.inj e).1)
    · intro js cs h
      cases h with
      | @cons _ _ j js c cs hj hc =>
        refine List.mem_flatMap.2 ⟨j, List.mem_range.2 (List.getElem?_eq_some_iff.1 hj).1, ?_⟩
        rw [hj]
        exact List.mem_map.2 ⟨_, h3 _ _ hc, rfl⟩

/-- Best choices exist. -/
theorem exists_best (ls : List (List RCand)) (k : Nat) : ∃ best, BestPicks ls k best := by
  classical
  obtain ⟨all, h1, h2, h3⟩ := exists_enum ls
  have hp := List.mergeSort_perm all (fun a b => decide (sumCost a.2 ≤ sumCost b.2))
  have hs : (all.mergeSort (fun a b => decide (sumCost a.2 ≤ sumCost b.2))).Pairwise
      (fun a b => sumCost a.2 ≤ sumCost b.2) := by
    have := List.pairwise_mergeSort (le := fun a b : List Nat × List RCand => decide (sumCost a.2 ≤ sumCost b.2))
      (by intro a b c; simp only [decide_eq_true_eq]; exact le_trans)
      (by intro a b; simp only [Bool.or_eq_true, decide_eq_true_eq]; exact le_total _ _) all
    exact this.imp (by simp)
  generalize all.mergeSort _ = s at hp hs
  refine ⟨s.take k, ?_, ?_, hs.sublist (List.take_sublist _ _), by rw [List.length_take]; omega, ?_⟩
  · intro b hb
    exact h1 b (hp.mem_iff.1 (List.mem_of_mem_take hb))
  · have : (s.map (·.1)).Nodup := (hp.map _).nodup_iff.2 h2
    exact this.sublist ((List.take_sublist _ _).map _)
  · intro js cs hc hnot
    have hm : (js, cs) ∈ s := hp.mem_iff.2 (h3 _ _ hc)
    rw [← List.take_append_drop k s] at hm hs
    rcases List.mem_append.1 hm with hm | hm
    · exact absurd (List.mem_map.2 ⟨_, hm, rfl⟩) hnot
    · refine ⟨?_, fun b hb => (List.pairwise_append.1 hs).2.2 b hb _ hm⟩
      rw [List.length_take]
      by_cases hk : k ≤ s.length
      · omega
      · rw [List.drop_of_length_le (by omega)] at hm
        simp at hm

theorem exists_pick {κ : Type} {ls : List (List (Str × κ))} (h : ∀ l ∈ ls, l ≠ []) :
    ∃ js cs, Pick ls js cs := by
  induction ls with
  | nil => exact ⟨_, _, .nil⟩
  | cons l ls ih =>
    obtain ⟨js, cs, hc⟩ := ih (fun x hx => h x (by simp [hx]))
    cases l with
    | nil => exact absurd rfl (h [] (by simp))
    | cons c l => exact ⟨0 :: js, c :: cs, .cons rfl hc⟩

theorem no_pick {κ : Type} {ls : List (List (Str × κ))} (h : [] ∈ ls) (js : List Nat)
    (cs : List (Str × κ)) : ¬ Pick ls js cs := by
  intro hp
  induction hp with
  | nil => simp at h
  | cons hj _ ih =>
    rcases List.mem_cons.1 h with rfl | h
    · simp at hj
    · exact ih h

/-- The string of a choice, before words `<epsilon>` are considered. -/
def spell {κ : Type} (cs : List (Str × κ)) : Str :=
  strJoin [32] ((cs.map (·.1)).filter (fun w => w != epsilonName))

/-- Results of `GetOutputs` on a lattice. -/
theorem outputs_iff (ls : List (List RCand)) (fin : ℝ) (kbest : Int) (r : Except Err (List RCand)) :
    GetOutputs (makeLattice ls [epsilonName]).2 fin (makeLattice ls [epsilonName]).1 kbest r ↔
      ∃ best, BestPicks ls kbest.toNat best ∧
        r = if kbest ≤ 0 ∨ best = [] then .error .outOfRange
          else .ok (Softmax.getOutputsNorm (best.map (fun b => (spell b.2, sumCost b.2 + fin)))) := by
  obtain ⟨U, h1, h2, h3, h4⟩ := makeLattice_eq ls [epsilonName] (by simp)
  rw [h4]
  have hn : (⟨rows U 0 ls, some 0, [ls.length]⟩ : VFst ℝ).numStates ≠ 0 := by
    unfold VFst.numStates
    cases ls <;> simp [rows]
  have hout : ∀ best, BestPicks ls kbest.toNat best →
      getOutputs ⟨rows U 0 ls, some 0, [ls.length]⟩ fin U kbest (best.map (fun b => pathOf U 0 b.1 b.2)) =
        if kbest ≤ 0 ∨ best = [] then .error .outOfRange
          else .ok (Softmax.getOutputsNorm (best.map (fun b => (spell b.2, sumCost b.2 + fin)))) := by
    intro best hb
    unfold getOutputs
    rw [if_neg hn]
    simp only [List.map_eq_nil_iff, List.map_map]
    have : best.map ((fun p => (strJoin [32] (pathWords U p), cost p + fin)) ∘
        fun b => pathOf U 0 b.1 b.2) = best.map (fun b => (spell b.2, sumCost b.2 + fin)) := by
      apply List.map_congr_left
      intro b hbm
      have hp := hb.pick b hbm
      simp only [Function.comp, cost_pathOf hp]
      rw [words_pathOf h1 hp]
      · rfl
      · intro c hc
        obtain ⟨l, hl, hm⟩ := hp.mem c hc
        exact h3 l hl c hm
    rw [this]
  unfold GetOutputs
  constructor
  · rintro ⟨ps, hps, rfl⟩
    obtain ⟨best, hb, rfl⟩ := shortest_iff.1 hps
    exact ⟨best, hb, hout best hb⟩
  · rintro ⟨best, hb, rfl⟩
    exact ⟨_, shortest_iff.2 ⟨best, hb, rfl⟩, (hout best hb).symm⟩

end Nisaba.Extract
