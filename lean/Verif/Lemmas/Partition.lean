import Verif.Lemmas.Basic
/-! Helper lemmas about `partitionUnordered`. -/
namespace Nisaba

/-- A rule of maximal left-hand-side length. -/
theorem exists_maxLhs {g : List Rule} (h : g ≠ []) :
    ∃ p ∈ g, ∀ q ∈ g, q.1.length ≤ p.1.length := by
  induction g with
  | nil => exact absurd rfl h
  | cons r rs ih =>
    by_cases hrs : rs = []
    · subst hrs; exact ⟨r, by simp, by simp⟩
    · obtain ⟨p, hp, hmax⟩ := ih hrs
      by_cases hle : p.1.length ≤ r.1.length
      · refine ⟨r, by simp, ?_⟩
        intro q hq
        rcases List.mem_cons.1 hq with rfl | hq
        · exact Nat.le_refl _
        · exact Nat.le_trans (hmax q hq) hle
      · refine ⟨p, by simp [hp], ?_⟩
        intro q hq
        rcases List.mem_cons.1 hq with rfl | hq
        · omega
        · exact hmax q hq

/-- The nodes that remain after removing the leaves. -/
def remaining (g : List Rule) : List Rule :=
  g.filter fun p => !((leaves g).any fun q => ruleEq p q)

theorem mem_remaining {g : List Rule} {p : Rule} :
    p ∈ remaining g ↔ p ∈ g ∧ p ∉ leaves g := by
  simp only [remaining, List.mem_filter, Bool.not_eq_true', ← Bool.not_eq_true, List.any_eq_true,
    ruleEq_iff]
  constructor
  · rintro ⟨h, h'⟩
    exact ⟨h, fun hl => h' ⟨p, hl, rfl⟩⟩
  · rintro ⟨h, h'⟩
    refine ⟨h, ?_⟩
    rintro ⟨q, hq, rfl⟩
    exact h' hq

theorem remaining_length {g : List Rule} (h : leaves g ≠ []) :
    (remaining g).length < g.length := by
  obtain ⟨p, hp⟩ := List.exists_mem_of_ne_nil _ h
  have hg : p ∈ g := (mem_leaves.1 hp).1
  have hle : (remaining g).length ≤ g.length := List.length_filter_le _ _
  rcases Nat.lt_or_ge (remaining g).length g.length with hlt | hge
  · exact hlt
  · exfalso
    have heq : (remaining g).length = g.length := by omega
    have : remaining g = g := List.filter_eq_self.2 (List.length_filter_eq_length_iff.1 heq)
    have hg' : p ∈ remaining g := by rw [this]; exact hg
    exact (mem_remaining.1 hg').2 hp

theorem peel_succ_cons (n : Nat) (g : List Rule) (hg : g ≠ []) :
    peel (n + 1) g = if leaves g = [] then .valueError else
      match peel n (remaining g) with
      | .ok sets => .ok (leaves g :: sets)
      | e => e := by
  cases g with
  | nil => exact absurd rfl hg
  | cons a as =>
    show (match leaves (a :: as) with
      | [] => Split.valueError
      | ls@(_ :: _) =>
        match peel n ((a :: as).filter fun p => !(ls.any fun q => ruleEq p q)) with
        | .ok sets => .ok (ls :: sets)
        | e => e) = _
    cases hl : leaves (a :: as) with
    | nil => simp
    | cons b bs =>
      simp only [remaining, hl]
      rfl

/-- What a successful split guarantees. -/
structure GoodSplit (g : List Rule) (sets : List (List Rule)) : Prop where
  nodup : g.Nodup → sets.flatten.Nodup
  mem : ∀ p, p ∈ sets.flatten ↔ p ∈ g
  nonempty : ∀ S ∈ sets, S ≠ []
  free : ∀ S ∈ sets, ∀ p ∈ S, ∀ q ∈ S, p ≠ q → ¬ p.1 <:+: q.1
  order : ∀ (i j : Nat) (S S' : List Rule), sets[i]? = some S → sets[j]? = some S' →
    ∀ p ∈ S, ∀ q ∈ S', p ≠ q → p.1 <:+: q.1 → j < i

theorem peel_ok {n : Nat} {g : List Rule} {sets : List (List Rule)} (h : peel n g = .ok sets) :
    GoodSplit g sets := by
  induction n generalizing g sets with
  | zero =>
    cases g with
    | nil => simp only [peel, Split.ok.injEq] at h; subst h; constructor <;> simp
    | cons a as => simp [peel] at h
  | succ n ih =>
    by_cases hg : g = []
    · subst hg; simp only [peel, Split.ok.injEq] at h; subst h; constructor <;> simp
    · rw [peel_succ_cons n g hg] at h
      split at h
      · exact absurd h (by simp)
      · rename_i hl
        cases hp : peel n (remaining g) with
        | ok sets' =>
          rw [hp] at h
          simp only [Split.ok.injEq] at h
          subst h
          have G := ih hp
          constructor
          · intro hnd
            simp only [List.flatten_cons, List.nodup_append]
            refine ⟨hnd.filter _, G.nodup (hnd.filter _), ?_⟩
            intro a ha b hb hab
            subst hab
            exact (mem_remaining.1 ((G.mem _).1 hb)).2 ha
          · intro p
            simp only [List.flatten_cons, List.mem_append, G.mem, mem_remaining]
            constructor
            · rintro (h | h)
              · exact (mem_leaves.1 h).1
              · exact h.1
            · intro h
              by_cases hpl : p ∈ leaves g
              · exact Or.inl hpl
              · exact Or.inr ⟨h, hpl⟩
          · intro S hS
            rcases List.mem_cons.1 hS with rfl | hS
            · exact hl
            · exact G.nonempty S hS
          · intro S hS p hp q hq hpq
            rcases List.mem_cons.1 hS with rfl | hS
            · intro hin
              exact (mem_leaves.1 hp).2 q (mem_leaves.1 hq).1 ⟨hpq, hin⟩
            · exact G.free S hS p hp q hq hpq
          · intro i j S S' hi hj p hp q hq hpq hin
            cases i with
            | zero =>
              exfalso
              simp only [List.getElem?_cons_zero, Option.some.injEq] at hi
              subst hi
              have hqg : q ∈ g := by
                cases j with
                | zero =>
                  simp only [List.getElem?_cons_zero, Option.some.injEq] at hj
                  subst hj; exact (mem_leaves.1 hq).1
                | succ j =>
                  simp only [List.getElem?_cons_succ] at hj
                  have : q ∈ sets'.flatten :=
                    List.mem_flatten.2 ⟨S', List.mem_of_getElem? hj, hq⟩
                  exact (mem_remaining.1 ((G.mem _).1 this)).1
              exact (mem_leaves.1 hp).2 q hqg ⟨hpq, hin⟩
            | succ i =>
              cases j with
              | zero => omega
              | succ j =>
                simp only [List.getElem?_cons_succ] at hi hj
                have := G.order i j S S' hi hj p hp q hq hpq hin
                omega
        | valueError => rw [hp] at h; simp at h
        | fuel => rw [hp] at h; simp at h

theorem peel_ne_fuel {n : Nat} {g : List Rule} (hn : g.length ≤ n) : peel n g ≠ .fuel := by
  induction n generalizing g with
  | zero =>
    have : g = [] := List.length_eq_zero_iff.1 (by omega)
    subst this; simp [peel]
  | succ n ih =>
    by_cases hg : g = []
    · subst hg; simp [peel]
    · rw [peel_succ_cons n g hg]
      split
      · simp
      · rename_i hl
        have := remaining_length hl
        have := ih (g := remaining g) (by omega)
        cases hp : peel n (remaining g) with
        | ok s => simp
        | valueError => simp
        | fuel => exact absurd hp this

theorem peel_valueError {n : Nat} {g : List Rule} (h : peel n g = .valueError) :
    ∃ p ∈ g, ∃ q ∈ g, p ≠ q ∧ p.1 = q.1 := by
  induction n generalizing g with
  | zero => cases g <;> simp [peel] at h
  | succ n ih =>
    by_cases hg : g = []
    · subst hg; simp [peel] at h
    · rw [peel_succ_cons n g hg] at h
      split at h
      · rename_i hl
        obtain ⟨p, hp, hmax⟩ := exists_maxLhs hg
        have hnl : p ∉ leaves g := by rw [hl]; simp
        have : ∃ q ∈ g, p ≠ q ∧ p.1 <:+: q.1 := by
          by_cases hex : ∃ q ∈ g, p ≠ q ∧ p.1 <:+: q.1
          · exact hex
          · exact absurd (mem_leaves.2 ⟨hp, fun q hq hh => hex ⟨q, hq, hh⟩⟩) hnl
        obtain ⟨q, hq, hpq, hin⟩ := this
        exact ⟨p, hp, q, hq, hpq, hin.eq_of_length (Nat.le_antisymm hin.length_le (hmax q hq))⟩
      · cases hp : peel n (remaining g) with
        | ok s => rw [hp] at h; simp at h
        | fuel => rw [hp] at h; simp at h
        | valueError =>
          obtain ⟨p, hp, q, hq, hh⟩ := ih hp
          exact ⟨p, (mem_remaining.1 hp).1, q, (mem_remaining.1 hq).1, hh⟩

theorem peel_conflict {n : Nat} {g : List Rule} (hn : g.length ≤ n)
    (h : ∃ p ∈ g, ∃ q ∈ g, p ≠ q ∧ p.1 = q.1) : peel n g = .valueError := by
  cases hp : peel n g with
  | valueError => rfl
  | fuel => exact absurd hp (peel_ne_fuel hn)
  | ok sets =>
    exfalso
    have G := peel_ok hp
    obtain ⟨p, hp, q, hq, hne, heq⟩ := h
    obtain ⟨S, hS, hpS⟩ := List.mem_flatten.1 ((G.mem p).2 hp)
    obtain ⟨S', hS', hqS⟩ := List.mem_flatten.1 ((G.mem q).2 hq)
    obtain ⟨i, hi⟩ := List.getElem?_of_mem hS
    obtain ⟨j, hj⟩ := List.getElem?_of_mem hS'
    have h1 := G.order i j S S' hi hj p hpS q hqS hne (heq ▸ List.infix_refl _)
    have h2 := G.order j i S' S hj hi q hqS p hpS (Ne.symm hne) (heq ▸ List.infix_refl _)
    omega

/-- Two lists with the same elements. -/
def SameMem (a b : List Rule) : Prop := ∀ p, p ∈ a ↔ p ∈ b

/-- Rule sets that agree set by set. -/
def SameSets : List (List Rule) → List (List Rule) → Prop
  | [], [] => True
  | a :: as, b :: bs => SameMem a b ∧ SameSets as bs
  | _, _ => False

/-- Outcomes that agree up to the order of rules inside each set. -/
def SameSplit : Split → Split → Prop
  | .ok a, .ok b => SameSets a b
  | .valueError, .valueError => True
  | _, _ => False

theorem leaves_same {g g' : List Rule} (h : SameMem g g') : SameMem (leaves g) (leaves g') := by
  intro p
  rw [mem_leaves, mem_leaves, h p]
  constructor <;> rintro ⟨a, b⟩ <;> refine ⟨a, fun q hq => b q ?_⟩
  · exact (h q).2 hq
  · exact (h q).1 hq

theorem nil_of_same {g g' : List Rule} (h : SameMem g g') : g = [] ↔ g' = [] := by
  constructor
  · intro e; subst e
    exact List.eq_nil_iff_forall_not_mem.2 fun a ha => by simpa using (h a).2 ha
  · intro e; subst e
    exact List.eq_nil_iff_forall_not_mem.2 fun a ha => by simpa using (h a).1 ha

theorem peel_same {n n' : Nat} {g g' : List Rule} (hn : g.length ≤ n) (hn' : g'.length ≤ n')
    (h : SameMem g g') : SameSplit (peel n g) (peel n' g') := by
  induction n generalizing n' g g' with
  | zero =>
    have : g = [] := List.length_eq_zero_iff.1 (by omega)
    have h' := (nil_of_same h).1 this
    subst this; subst h'
    cases n' <;> simp [peel, SameSplit, SameSets]
  | succ n ih =>
    by_cases hg : g = []
    · have h' := (nil_of_same h).1 hg
      subst hg; subst h'
      cases n' <;> simp [peel, SameSplit, SameSets]
    · have hg' : g' ≠ [] := fun e => hg ((nil_of_same h).2 e)
      cases n' with
      | zero => exact absurd (List.length_eq_zero_iff.1 (Nat.le_zero.1 hn')) hg'
      | succ n' =>
        rw [peel_succ_cons n g hg, peel_succ_cons n' g' hg']
        have hl := leaves_same h
        by_cases hle : leaves g = []
        · rw [if_pos hle, if_pos ((nil_of_same hl).1 hle)]; trivial
        · have hle' : leaves g' ≠ [] := fun e => hle ((nil_of_same hl).2 e)
          rw [if_neg hle, if_neg hle']
          have hr : SameMem (remaining g) (remaining g') := by
            intro p; rw [mem_remaining, mem_remaining, h p, hl p]
          have l1 := remaining_length hle
          have l2 := remaining_length hle'
          have := ih (g := remaining g) (g' := remaining g') (n' := n') (by omega) (by omega) hr
          revert this
          cases peel n (remaining g) <;> cases peel n' (remaining g') <;>
            simp [SameSplit, SameSets, hl]

end Nisaba
