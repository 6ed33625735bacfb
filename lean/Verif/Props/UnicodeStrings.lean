import Verif.Model.UnicodeStrings
/-!
# C29: entries given by Unicode names
-/
namespace Nisaba.Props

open Nisaba.UniStr

namespace UniStrSpec

/-- The name with this prefix names the character `c`, which is not a control character. -/
def Names (db : Db) (pre suffix : Name) (c : Nat) : Prop :=
  db.lookup ((pre ++ [32] ++ suffix).dropWhile db.isSpace) = some [c] ∧ db.isCc c = false

/-- The name with this prefix names nothing or a control character. -/
def Unnamed (db : Db) (pre suffix : Name) : Prop :=
  db.lookup ((pre ++ [32] ++ suffix).dropWhile db.isSpace) = none ∨
  ∃ c, db.lookup ((pre ++ [32] ++ suffix).dropWhile db.isSpace) = some [c] ∧ db.isCc c = true

/-- Among the prefixes and the empty prefix exactly one gives a name, and it names `c`. -/
def Resolves (db : Db) (prefixes : List Name) (suffix : Name) (c : Nat) : Prop :=
  ∃ l₁ p l₂, prefixes ++ [[]] = l₁ ++ p :: l₂ ∧ Names db p suffix c ∧
    ∀ q, q ∈ l₁ ∨ q ∈ l₂ → Unnamed db q suffix

/-- The names of the entry spell `s`, one character for each. -/
def Spells (db : Db) (prefixes : List Name) : List Name → List Nat → Prop
  | [], [] => True
  | n :: ns, c :: cs => Resolves db prefixes n c ∧ Spells db prefixes ns cs
  | _, _ => False

/-- What an entry with these names and this raw string stands for. -/
def Stands (db : Db) (prefixes unames : List Name) (raw s : List Nat) : Prop :=
  (unames = [] ∧ raw ≠ [] ∧ s = raw) ∨
  (unames ≠ [] ∧ Spells db prefixes unames s ∧
    (raw = [] ∨ (raw = s ∧ ∀ c ∈ raw, (db.name c).isSome = true)))

theorem fullName_eq (db : Db) (p s : Name) :
    fullName db p s = (p ++ [32] ++ s).dropWhile db.isSpace := by
  simp [fullName]

theorem candidates_nil {db : Db} {suffix : Name} : ∀ {ps : List Name},
    candidates db suffix ps = .ok [] ↔ ∀ q ∈ ps, Unnamed db q suffix
  | [] => by simp [candidates]
  | p :: ps => by
    have ih := @candidates_nil db suffix ps
    simp only [candidates, fullName_eq, List.mem_cons, forall_eq_or_imp, Unnamed]
    split
    · rename_i h; simp only [h, true_or, true_and]; exact ih
    · rename_i c h
      simp only [h, reduceCtorEq, Option.some.injEq, List.cons.injEq, and_true, false_or]
      cases hr : candidates db suffix ps with
      | error e =>
        rw [hr] at ih
        simp only [reduceCtorEq, false_iff] at ih ⊢
        exact fun h => ih h.2
      | ok l =>
        rw [hr] at ih
        simp only [Except.ok.injEq] at ih ⊢
        by_cases hc : db.isCc c = true
        · simp only [hc, if_true, ih, exists_eq_left', true_and]; rfl
        · simp [hc]
    · rename_i s hs h
      simp only [h, reduceCtorEq, Option.some.injEq, false_or, false_iff]
      rintro ⟨⟨c, hc, _⟩, _⟩
      exact hs c hc

theorem candidates_one {db : Db} {suffix : Name} {c : Nat} : ∀ {ps : List Name},
    (∃ u, candidates db suffix ps = .ok [(c, u)]) ↔
      ∃ l₁ p l₂, ps = l₁ ++ p :: l₂ ∧ Names db p suffix c ∧ ∀ q, q ∈ l₁ ∨ q ∈ l₂ → Unnamed db q suffix
  | [] => by simp [candidates]
  | p :: ps => by
    have ih := @candidates_one db suffix c ps
    have ih0 := @candidates_nil db suffix ps
    -- The first element is not the hit.
    have skip : Unnamed db p suffix → ((∃ l₁ p' l₂, p :: ps = l₁ ++ p' :: l₂ ∧ Names db p' suffix c ∧
        ∀ q, q ∈ l₁ ∨ q ∈ l₂ → Unnamed db q suffix) ↔
        ∃ l₁ p' l₂, ps = l₁ ++ p' :: l₂ ∧ Names db p' suffix c ∧
          ∀ q, q ∈ l₁ ∨ q ∈ l₂ → Unnamed db q suffix) := by
      intro hu
      constructor
      · rintro ⟨l₁, p', l₂, e, hn, hq⟩
        cases l₁ with
        | nil =>
          simp only [List.nil_append, List.cons.injEq] at e
          rw [← e.1] at hn
          rcases hu with h | ⟨d, h, hd⟩
          · rw [hn.1] at h; cases h
          · rw [hn.1] at h
            simp only [Option.some.injEq, List.cons.injEq, and_true] at h
            rw [← h, hn.2] at hd
            cases hd
        | cons a l₁ =>
          simp only [List.cons_append, List.cons.injEq] at e
          exact ⟨l₁, p', l₂, e.2, hn, fun q h => hq q (h.imp (fun h => by simp [h]) id)⟩
      · rintro ⟨l₁, p', l₂, e, hn, hq⟩
        refine ⟨p :: l₁, p', l₂, by simp [e], hn, ?_⟩
        rintro q (h | h)
        · rcases List.mem_cons.1 h with rfl | h
          · exact hu
          · exact hq q (.inl h)
        · exact hq q (.inr h)
    simp only [candidates, fullName_eq]
    split
    · rename_i h
      rw [skip (.inl h)]
      exact ih
    · rename_i d h
      by_cases hc : db.isCc d = true
      · rw [skip (.inr ⟨d, h, hc⟩), ← ih]
        cases hr : candidates db suffix ps with
        | error e => simp
        | ok l => simp [hc]
      · have hn : Names db p suffix d := ⟨h, by simpa using hc⟩
        constructor
        · rintro ⟨u, hu⟩
          cases hr : candidates db suffix ps with
          | error e => rw [hr] at hu; simp at hu
          | ok l =>
            rw [hr] at hu
            simp only [hc, Bool.false_eq_true, if_false, Except.ok.injEq, List.cons.injEq,
              Prod.mk.injEq] at hu
            obtain ⟨⟨rfl, _⟩, rfl⟩ := hu
            exact ⟨[], p, ps, rfl, hn, fun q hq => ih0.1 hr q (by simpa using hq)⟩
        · rintro ⟨l₁, p', l₂, e, hn', hq⟩
          cases l₁ with
          | nil =>
            simp only [List.nil_append, List.cons.injEq] at e
            obtain ⟨rfl, rfl⟩ := e
            have hr := ih0.2 (fun q h => hq q (.inr h))
            have : d = c := by
              have := hn'.1
              rw [h] at this
              simpa using this
            rw [hr, this] 
            subst this
            exact ⟨_, by simp [hc]; rfl⟩
          | cons a l₁ =>
            simp only [List.cons_append, List.cons.injEq] at e
            have := hq a (.inl (by simp))
            rw [← e.1] at this
            rcases this with h' | ⟨d', h', hd⟩
            · rw [h] at h'; cases h'
            · rw [h] at h'
              simp only [Option.some.injEq, List.cons.injEq, and_true] at h'
              rw [← h'] at hd
              exact absurd hd hc
    · rename_i s hs h
      simp only [reduceCtorEq, exists_false, false_iff]
      rintro ⟨l₁, p', l₂, e, hn', hq⟩
      cases l₁ with
      | nil =>
        simp only [List.nil_append, List.cons.injEq] at e
        obtain ⟨rfl, rfl⟩ := e
        exact hs c (by have := hn'.1; rw [h] at this; simpa using this)
      | cons a l₁ =>
        simp only [List.cons_append, List.cons.injEq] at e
        have := hq a (.inl (by simp))
        rw [← e.1] at this
        rcases this with h' | ⟨d', h', hd⟩
        · rw [h] at h'; cases h'
        · exact hs d' (by rw [h] at h'; simpa using h')

theorem nameToChar_ok {db : Db} {prefixes : List Name} {suffix : Name} {c : Nat} :
    (∃ u, nameToChar db prefixes suffix = .ok (c, u)) ↔ Resolves db prefixes suffix c := by
  rw [Resolves, ← candidates_one]
  simp only [nameToChar]
  split
  · rename_i h; simp [h]
  · rename_i h; simp [h]
  · rename_i h; simp [h]
  · rename_i h; simp [h]

theorem namesLoop_ok {db : Db} {prefixes : List Name} : ∀ {names : List Name} {s : List Nat},
    (∃ l, namesLoop db prefixes names = .ok l ∧ l.map Prod.fst = s) ↔ Spells db prefixes names s
  | [], s => by
    cases s <;> simp [namesLoop, Spells]
  | n :: ns, s => by
    simp only [namesLoop]
    cases hn : nameToChar db prefixes n with
    | error e =>
      simp only [reduceCtorEq, false_and, exists_false, false_iff]
      cases s with
      | nil => simp [Spells]
      | cons c cs =>
        rintro ⟨h, _⟩
        obtain ⟨u, hu⟩ := nameToChar_ok.2 h
        rw [hn] at hu
        cases hu
    | ok cu =>
      cases s with
      | nil =>
        simp only [Spells, iff_false]
        rintro ⟨l, h, h2⟩
        split at h <;> simp_all
      | cons c cs =>
        simp only [Spells, ← nameToChar_ok, hn, ← namesLoop_ok (names := ns)]
        cases hr : namesLoop db prefixes ns with
        | error e => simp
        | ok l =>
          obtain ⟨c', u⟩ := cu
          simp only [Except.ok.injEq, Prod.mk.injEq, exists_eq_left', List.map_cons, List.cons.injEq]
          constructor
          · rintro ⟨rfl, h⟩; exact ⟨⟨u, rfl, rfl⟩, h⟩
          · rintro ⟨⟨u', h, _⟩, h2⟩; exact ⟨h, h2⟩

theorem entries_ok {db : Db} {prefixes unames : List Name} {raw s : List Nat} :
    entriesToString db prefixes unames raw = .ok s ↔ Stands db prefixes unames raw s := by
  have hs := @namesLoop_ok db prefixes unames
  have key : ∀ s, namesToString db prefixes unames = .ok s ↔ unames ≠ [] ∧ Spells db prefixes unames s := by
    intro s
    rw [← hs]
    simp only [namesToString]
    cases hu : unames with
    | nil => simp [namesLoop]
    | cons n ns =>
      simp only [ne_eq, List.cons_ne_nil, not_false_eq_true, true_and]
      have ne : namesLoop db prefixes (n :: ns) ≠ .ok [] := by
        simp only [namesLoop]
        split
        · simp
        · split <;> simp
      split
      · rename_i h; simp [h]
      · rename_i h; exact absurd h ne
      · rename_i h; simp [h]
  simp only [entriesToString, Stands]
  by_cases h1 : raw ≠ [] ∧ unames = []
  · simp only [h1, and_self, if_true, Except.ok.injEq, ne_eq, not_true_eq_false, false_and, or_false,
      true_and, not_false_eq_true]
    exact eq_comm
  · rw [if_neg h1]
    have h1' : ¬ (unames = [] ∧ raw ≠ [] ∧ s = raw) := fun h => h1 ⟨h.2.1, h.1⟩
    simp only [h1', false_or]
    by_cases h2 : raw.all (fun c => (db.name c).isSome) = true
    · rw [if_pos h2]
      have h2' : ∀ c ∈ raw, (db.name c).isSome = true := by simpa [List.all_eq_true] using h2
      cases hn : namesToString db prefixes unames with
      | error e =>
        simp only [reduceCtorEq, false_iff]
        rintro ⟨h3, h4, _⟩
        have := (key s).2 ⟨h3, h4⟩
        rw [hn] at this
        cases this
      | ok t =>
        have hk := (key t).1 hn
        by_cases h3 : raw ≠ [] ∧ t ≠ raw
        · simp only [h3, and_self, if_true, reduceCtorEq, false_iff, ne_eq, not_false_eq_true]
          rintro ⟨h4, h5, h6⟩
          have := (key s).2 ⟨h4, h5⟩
          rw [hn] at this
          simp only [Except.ok.injEq] at this
          rcases h6 with h6 | h6
          · exact absurd h6 (by simpa using h3.1)
          · exact h3.2 (this.trans h6.1.symm)
        · simp only [if_neg h3, Except.ok.injEq]
          constructor
          · rintro rfl
            refine ⟨hk.1, hk.2, ?_⟩
            by_cases h4 : raw = []
            · exact .inl h4
            · refine .inr ⟨?_, h2'⟩
              by_cases h5 : t = raw
              · exact h5.symm
              · exact absurd ⟨h4, h5⟩ h3
          · rintro ⟨h4, h5, _⟩
            have := (key s).2 ⟨h4, h5⟩
            rw [hn] at this
            simpa using this
    · rw [if_neg h2]
      simp only [reduceCtorEq, false_iff]
      rintro ⟨_, _, h4 | h4⟩
      · exact h2 (by simp [h4])
      · exact h2 (by simpa [List.all_eq_true] using h4.2)

/-- Every name found names one character. -/
def Single (db : Db) : Prop := ∀ n s, db.lookup n = some s → ∃ c, s = [c]

theorem candidates_err {db : Db} (h : Single db) {suffix : Name} : ∀ {ps : List Name} {e : Err},
    candidates db suffix ps ≠ .error e
  | [], e => by simp [candidates]
  | p :: ps, e => by
    have ih := fun e => @candidates_err db h suffix ps e
    simp only [candidates]
    split
    · exact ih e
    · cases hr : candidates db suffix ps with
      | error e => exact absurd hr (ih e)
      | ok l => simp
    · rename_i s hs h'
      obtain ⟨c, hc⟩ := h _ _ h'
      exact (hs c hc).elim

theorem entries_err {db : Db} (h : Single db) {prefixes unames : List Name} {raw : List Nat} {e : Err}
    (he : entriesToString db prefixes unames raw = .error e) : e = .value := by
  have h1 : ∀ n e, nameToChar db prefixes n = .error e → e = .value := by
    intro n e he
    simp only [nameToChar] at he
    split at he
    · rename_i h2; exact absurd h2 (candidates_err h)
    · simpa using he.symm
    · cases he
    · simpa using he.symm
  have h2 : ∀ ns e, namesLoop db prefixes ns = .error e → e = .value := by
    intro ns
    induction ns with
    | nil => intro e he; simp [namesLoop] at he
    | cons n ns ih =>
      intro e he
      simp only [namesLoop] at he
      split at he
      · rename_i h3; simp only [Except.error.injEq] at he; exact he ▸ h1 _ _ h3
      · split at he
        · rename_i h3; simp only [Except.error.injEq] at he; exact he ▸ ih _ h3
        · cases he
  have h3 : ∀ e, namesToString db prefixes unames = .error e → e = .value := by
    intro e he
    simp only [namesToString] at he
    split at he
    · rename_i h3; simp only [Except.error.injEq] at he; exact he ▸ h2 _ _ h3
    · simpa using he.symm
    · cases he
  simp only [entriesToString] at he
  split at he
  · cases he
  · split at he
    · split at he
      · rename_i h4; simp only [Except.error.injEq] at he; exact he ▸ h3 _ h4
      · split at he
        · simpa using he.symm
        · cases he
    · simpa using he.symm

/-- A database with the names `A` (also `a`), `X A`, a control `C`, and the named sequence `S`. -/
def exampleDb : Db where
  lookup n :=
    if n = [65] then some [1] else if n = [97] then some [1] else if n = [88, 32, 66] then some [2]
    else if n = [67] then some [3] else if n = [83] then some [1, 2] else none
  name c := if c = 1 then some [65] else if c = 2 then some [88, 32, 66] else none
  isCc c := c == 3
  isSpace c := c == 32

end UniStrSpec

open UniStrSpec

/-- An item is converted to `(s, d)` exactly if its source entry stands for `s` and its destination
entry, if there is one, for `d`, with the destination prefixes of the file or else its prefixes. -/
theorem C29_convert (db : Db) (set : List Name → List Name) (prefixes toPrefixes : List Name) (it : Item)
    (s : List Nat) (d : Option (List Nat)) :
    convertItem db set prefixes toPrefixes it = .ok (s, d) ↔
      Stands db (set prefixes) it.uname it.raw s ∧
      ((it.toUname = [] ∧ it.toRaw = [] ∧ d = none) ∨
       ((it.toUname ≠ [] ∨ it.toRaw ≠ []) ∧ ∃ t, d = some t ∧
        Stands db (if set toPrefixes = [] then set prefixes else set toPrefixes) it.toUname it.toRaw t)) := by
  simp only [convertItem]
  by_cases h0 : it.uname = [] ∧ it.raw = []
  · rw [if_pos h0]
    simp only [reduceCtorEq, false_iff]
    rintro ⟨h | h, _⟩
    · exact h.2.1 h0.2
    · exact h.1 h0.1
  · rw [if_neg h0]
    cases hs : entriesToString db (set prefixes) it.uname it.raw with
    | error e =>
      simp only [reduceCtorEq, false_iff]
      rintro ⟨h, _⟩
      rw [entries_ok.2 h] at hs
      cases hs
    | ok s' =>
      have e1 : Stands db (set prefixes) it.uname it.raw s ↔ s' = s := by
        rw [← entries_ok, hs, Except.ok.injEq]
      rw [e1]
      by_cases h1 : it.toUname = [] ∧ it.toRaw = []
      · simp only [h1, and_self, if_true, Except.ok.injEq, Prod.mk.injEq, true_and, ne_eq,
          not_true_eq_false, or_self, false_and, or_false]
        exact and_congr_right fun _ => eq_comm
      · simp only [if_neg h1]
        have h1' : it.toUname ≠ [] ∨ it.toRaw ≠ [] := by
          by_cases h : it.toUname = []
          · exact .inr fun h' => h1 ⟨h, h'⟩
          · exact .inl h
        have h1'' : ¬ (it.toUname = [] ∧ it.toRaw = [] ∧ d = none) := fun h => h1 ⟨h.1, h.2.1⟩
        simp only [h1', true_and, h1'', false_or]
        generalize (if set toPrefixes = [] then set prefixes else set toPrefixes) = tp
        cases ht : entriesToString db tp it.toUname it.toRaw with
        | error e =>
          simp only [reduceCtorEq, false_iff]
          rintro ⟨_, t, _, h⟩
          rw [entries_ok.2 h] at ht
          cases ht
        | ok t =>
          simp only [Except.ok.injEq, Prod.mk.injEq]
          refine and_congr_right fun _ => ?_
          constructor
          · rintro rfl; exact ⟨t, rfl, entries_ok.1 ht⟩
          · rintro ⟨t', rfl, h⟩
            rw [← entries_ok, ht, Except.ok.injEq] at h
            rw [h]

example : convertItem exampleDb id [[88]] [] ⟨[[65], [66]], [1, 2], [], [7]⟩ = .ok ([1, 2], some [7]) := by
  rfl

/-- If a raw string is given, the result is that raw string, for source and destination. -/
theorem C29_raw_agrees {db : Db} {set : List Name → List Name} {prefixes toPrefixes : List Name} {it : Item}
    {s : List Nat} {d : Option (List Nat)} (h : convertItem db set prefixes toPrefixes it = .ok (s, d)) :
    (it.raw ≠ [] → s = it.raw) ∧ (it.toRaw ≠ [] → d = some it.toRaw) := by
  obtain ⟨h1, h2⟩ := (C29_convert ..).1 h
  have key : ∀ {ps us : List Name} {raw s : List Nat}, Stands db ps us raw s → raw ≠ [] → s = raw := by
    rintro ps us raw s (⟨_, _, h⟩ | ⟨_, _, h | ⟨h, _⟩⟩) hr
    · exact h
    · exact absurd h hr
    · exact h.symm
  refine ⟨key h1, fun hr => ?_⟩
  rcases h2 with ⟨_, h3, _⟩ | ⟨_, t, rfl, h3⟩
  · exact absurd h3 hr
  · rw [key h3 hr]

/-- No order in which the set of prefixes is listed changes the result of a conversion that succeeds. -/
theorem C29_prefix_order {db : Db} {set set' : List Name → List Name} {prefixes toPrefixes : List Name}
    (h1 : (set prefixes).Perm (set' prefixes)) (h2 : (set toPrefixes).Perm (set' toPrefixes)) (it : Item)
    (s : List Nat) (d : Option (List Nat)) :
    convertItem db set prefixes toPrefixes it = .ok (s, d) →
    convertItem db set' prefixes toPrefixes it = .ok (s, d) := by
  have res : ∀ {ps qs : List Name} {n : Name} {c : Nat}, ps.Perm qs → Resolves db ps n c → Resolves db qs n c := by
    rintro ps qs n c hp ⟨l₁, p, l₂, e, hn, hq⟩
    have hp' : (l₁ ++ p :: l₂).Perm (qs ++ [[]]) := e ▸ hp.append_right _
    have hm : p ∈ qs ++ [[]] := hp'.subset (by simp)
    obtain ⟨m₁, m₂, em⟩ := List.append_of_mem hm
    refine ⟨m₁, p, m₂, em, hn, ?_⟩
    intro q hq'
    have h3 : (p :: (l₁ ++ l₂)).Perm (p :: (m₁ ++ m₂)) :=
      (List.perm_middle.symm.trans (em ▸ hp')).trans List.perm_middle
    have h4 := (List.perm_cons p).1 h3
    have : q ∈ l₁ ++ l₂ := h4.symm.subset (by simpa using hq')
    exact hq q (by simpa using this)
  have spells : ∀ {ps qs : List Name}, ps.Perm qs → ∀ {ns : List Name} {s : List Nat},
      Spells db ps ns s → Spells db qs ns s := by
    intro ps qs hp ns
    induction ns with
    | nil => intro s h; cases s <;> simp_all [Spells]
    | cons n ns ih =>
      intro s h
      cases s with
      | nil => simp [Spells] at h
      | cons c cs => exact ⟨res hp h.1, ih h.2⟩
  have stands : ∀ {ps qs us : List Name} {raw s : List Nat}, ps.Perm qs → Stands db ps us raw s →
      Stands db qs us raw s := by
    rintro ps qs us raw s hp (h | ⟨h1, h2, h3⟩)
    · exact .inl h
    · exact .inr ⟨h1, spells hp h2, h3⟩
  rw [C29_convert, C29_convert]
  rintro ⟨h3, h4⟩
  refine ⟨stands h1 h3, h4.imp id ?_⟩
  rintro ⟨h5, t, h6, h7⟩
  refine ⟨h5, t, h6, ?_⟩
  have e : set toPrefixes = [] ↔ set' toPrefixes = [] := by
    constructor
    · intro h; rw [h] at h2; exact h2.nil_eq.symm
    · intro h; rw [h] at h2; exact h2.eq_nil
  by_cases h8 : set toPrefixes = []
  · rw [if_pos h8] at h7
    rw [if_pos (e.1 h8)]
    exact stands h1 h7
  · rw [if_neg h8] at h7
    rw [if_neg (fun h => h8 (e.2 h))]
    exact stands h2 h7

example : convertItem exampleDb List.reverse [[89], [88]] [] ⟨[[66]], [], [], []⟩ = .ok ([2], none) := by rfl

/-- If every name in the database names one character, the only error is `ValueError`. -/
theorem C29_errors_partial {db : Db} (hdb : ∀ n s, db.lookup n = some s → ∃ c, s = [c])
    {set : List Name → List Name} {prefixes toPrefixes : List Name} {it : Item} {e : Err}
    (h : convertItem db set prefixes toPrefixes it = .error e) : e = .value := by
  simp only [convertItem] at h
  split at h
  · simpa using h.symm
  · split at h
    · rename_i h1; simp only [Except.error.injEq] at h; exact h ▸ entries_err hdb h1
    · split at h
      · cases h
      · split at h
        · rename_i h1; simp only [Except.error.injEq] at h; exact h ▸ entries_err hdb h1
        · cases h

example : (∀ n s, (⟨fun n => if n = [65] then some [1] else none, fun _ => none, fun _ => false,
      fun _ => false⟩ : Db).lookup n = some s → ∃ c, s = [c]) := by
  intro n s h
  simp only at h
  split at h
  · exact ⟨1, by simpa using h.symm⟩
  · cases h

/-- The name of a named sequence ends in a `TypeError`. -/
theorem C29_named_sequence :
    convertItem exampleDb id [] [] ⟨[[83]], [], [], []⟩ = .error .type := by rfl

/-- A prefix that is empty makes every name ambiguous, although it adds nothing. -/
theorem C29_empty_prefix {db : Db} {prefixes : List Name} (h : [] ∈ prefixes) (n : Name) (c : Nat)
    (u : Name) (hn : Names db [] n c) : nameToChar db prefixes n ≠ .ok (c, u) := by
  intro hu
  obtain ⟨l₁, p, l₂, e, hp, hq⟩ := nameToChar_ok.1 ⟨u, hu⟩
  have no : ¬ Unnamed db [] n := by
    rintro (h | ⟨d, h, hd⟩)
    · rw [hn.1] at h; cases h
    · rw [hn.1] at h
      simp only [Option.some.injEq, List.cons.injEq, and_true] at h
      rw [← h, hn.2] at hd
      cases hd
  have hp' : p = [] := by
    have : ([] : Name) ∈ l₁ ++ p :: l₂ := e ▸ by simp
    simp only [List.mem_append, List.mem_cons] at this
    rcases this with h1 | h1 | h1
    · exact absurd (hq _ (.inl h1)) no
    · exact h1.symm
    · exact absurd (hq _ (.inr h1)) no
  have cnt : 2 ≤ (prefixes ++ [[]]).count ([] : Name) := by
    have := List.count_pos_iff.2 h
    simp only [List.count_append, List.count_singleton_self]
    omega
  rw [e, hp'] at cnt
  have z1 : l₁.count ([] : Name) = 0 := List.count_eq_zero.2 fun h1 => no (hq _ (.inl h1))
  have z2 : l₂.count ([] : Name) = 0 := List.count_eq_zero.2 fun h1 => no (hq _ (.inr h1))
  simp [List.count_append, z1, z2] at cnt

example : Names exampleDb [] [65] 1 := ⟨rfl, rfl⟩

end Nisaba.Props
