import Verif.Model.Rule
/-! Helper lemmas about `composeFsts`. -/
namespace Nisaba

theorem WRel.comp_assoc (a b c : WRel) : comp (comp a b) c = comp a (comp b c) := by
  funext x z w
  apply propext
  constructor
  · rintro ⟨y, u, v, ⟨y', u', v', h1, h2, rfl⟩, h3, rfl⟩
    exact ⟨y', u', v' + v, h1, ⟨y, v', v, h2, h3, rfl⟩, by omega⟩
  · rintro ⟨y, u, v, h1, ⟨y', u', v', h2, h3, rfl⟩, rfl⟩
    exact ⟨y', u + u', v', ⟨y, u, u', h1, h2, rfl⟩, h3, by omega⟩

/-- Left-to-right composition of the denotations of a non-empty list. -/
def seqComp (a : WRel) (rest : List Fst) : WRel := rest.foldl (fun R b => WRel.comp R b.den) a

theorem seqComp_cons (a : WRel) (b : Fst) (rest : List Fst) :
    seqComp a (b :: rest) = WRel.comp a (seqComp b.den rest) := by
  induction rest generalizing a b with
  | nil => rfl
  | cons c rest ih =>
    have h1 : seqComp a (b :: c :: rest) = seqComp (WRel.comp a b.den) (c :: rest) := rfl
    rw [h1, ih, ih b.den c, WRel.comp_assoc]

/-- Denotation of a list, `none` for the empty list. -/
def seqDen : List Fst → Option WRel
  | [] => none
  | a :: rest => some (seqComp a.den rest)

theorem seqDen_cons_congr (a : Fst) {l l' : List Fst} (h : seqDen l = seqDen l') :
    seqDen (a :: l) = seqDen (a :: l') := by
  cases l with
  | nil =>
    cases l' with
    | nil => rfl
    | cons => simp [seqDen] at h
  | cons b l =>
    cases l' with
    | nil => simp [seqDen] at h
    | cons b' l' =>
      simp only [seqDen, Option.some.injEq, seqComp_cons] at h ⊢
      rw [h]

theorem seqDen_mergeAt (size : Fst → Fst → Nat) (i : Nat) (l : List Fst) :
    seqDen (mergeAt size i l) = seqDen l := by
  induction l generalizing i with
  | nil => cases i <;> rfl
  | cons a l ih =>
    cases i with
    | zero =>
      cases l with
      | nil => rfl
      | cons b rest => simp [mergeAt, seqDen, seqComp]
    | succ i => exact seqDen_cons_congr a (ih i)

theorem argMin_lt (x : Nat) (xs : List Nat) : (argMin x xs).1 ≤ xs.length := by
  induction xs generalizing x with
  | nil => simp [argMin]
  | cons y ys ih =>
    simp only [argMin]
    split
    · simp
    · have := ih y; simp; omega

theorem argMin_le (x : Nat) (xs : List Nat) : ∀ y ∈ x :: xs, (argMin x xs).2 ≤ y := by
  induction xs generalizing x with
  | nil => simp [argMin]
  | cons y ys ih =>
    intro z hz
    have := ih y
    simp only [argMin]
    split
    · rename_i h
      rcases List.mem_cons.1 hz with rfl | hz
      · exact Nat.le_refl _
      · exact Nat.le_trans h (this z hz)
    · rename_i h
      rcases List.mem_cons.1 hz with rfl | hz
      · simp; omega
      · exact this z hz

theorem length_adjacentProducts (l : List Fst) : (adjacentProducts l).length = l.length - 1 := by
  induction l with
  | nil => rfl
  | cons a l ih =>
    cases l with
    | nil => rfl
    | cons b l => simp [adjacentProducts, ih]

theorem length_mergeAt (size : Fst → Fst → Nat) (i : Nat) (l : List Fst) (h : i + 2 ≤ l.length) :
    (mergeAt size i l).length + 1 = l.length := by
  induction l generalizing i with
  | nil => simp at h
  | cons a l ih =>
    cases i with
    | zero =>
      cases l with
      | nil => simp at h
      | cons b rest => simp [mergeAt]
    | succ i =>
      simp only [mergeAt, List.length_cons]
      have := ih i (by simp at h; omega)
      omega

theorem composeFstsAux_den (size : Fst → Fst → Nat) (n : Nat) (l : List Fst) (d : Fst)
    (hn : l.length ≤ n) :
    some (composeFstsAux size n l d).den = (seqDen l).or (some d.den) := by
  induction n generalizing l with
  | zero =>
    have : l = [] := List.length_eq_zero_iff.1 (by omega)
    subst this; rfl
  | succ n ih =>
    match l, hn with
    | [], _ => rfl
    | [a], _ => rfl
    | a :: b :: rest, hn =>
      simp only [composeFstsAux]
      cases hp : adjacentProducts (a :: b :: rest) with
      | nil => simp [adjacentProducts] at hp
      | cons p ps =>
        have hl := length_adjacentProducts (a :: b :: rest)
        rw [hp] at hl
        have hi := argMin_lt p ps
        have hm := length_mergeAt size (argMin p ps).1 (a :: b :: rest)
          (by simp at hl ⊢; omega)
        have := ih (mergeAt size (argMin p ps).1 (a :: b :: rest)) (by omega)
        rw [seqDen_mergeAt] at this
        exact this

end Nisaba
