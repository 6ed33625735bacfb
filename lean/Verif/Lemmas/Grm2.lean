import Verif.Model.Grm2
import Mathlib.Data.List.Basic
import Mathlib.Data.List.Forall2
/-! # Lattices and cascades -/
namespace Nisaba.Grm2

variable {K : Type} [AddMonoid K] [LinearOrder K]

/-- `y` is an output of `x` with cost `c` after all the transducers, from left to right. -/
inductive Derives : List (Str → Lat K) → Str → Str → K → Prop
  | nil {x} : Derives [] x x 0
  | cons {f fs x y z c d} : (y, c) ∈ f x → Derives fs y z d → Derives (f :: fs) x z (c + d)

/-- No separator. -/
abbrev Plain (n : Str) : Prop := dollar ∉ n ∧ colon ∉ n

/-- What a rule definition means in an archive. -/
inductive Means (m : Map K) : Str → (Str → Lat K) → Prop
  | rule {n e} : Plain n → m n = some e → Means m n e.apply
  | pdt {n p e q ps} : Plain n → Plain p → p ≠ [] → m n = some e → m p = some q →
      makeParens q.arcs = .ok ps → Means m (n ++ dollar :: p) (e.pdt ps)
  | mpdt {n p a e q b ps as} : Plain n → Plain p → p ≠ [] → Plain a → a ≠ [] → m n = some e → m p = some q →
      m a = some b → makeParens q.arcs = .ok ps → makeAssigns b.arcs ps = .ok as →
      Means m (n ++ dollar :: (p ++ dollar :: a)) (e.mpdt ps as)

omit [AddMonoid K] [LinearOrder K] in
theorem mem_distinct (l : Lat K) (y : Str) : y ∈ distinct l ↔ ∃ c, (y, c) ∈ l := by
  induction l with
  | nil => simp [distinct]
  | cons p l ih =>
    rw [distinct, List.mem_cons, List.mem_filter, ih]
    constructor
    · rintro (rfl | ⟨⟨c, h⟩, _⟩)
      · exact ⟨p.2, by simp⟩
      · exact ⟨c, by simp [h]⟩
    · rintro ⟨c, h⟩
      rcases List.mem_cons.1 h with h | h
      · exact .inl (by rw [← h])
      · by_cases e : y = p.1
        · exact .inl e
        · exact .inr ⟨⟨c, h⟩, by simpa using e⟩

omit [AddMonoid K] [LinearOrder K] in
theorem nodup_distinct (l : Lat K) : (distinct l).Nodup := by
  induction l with
  | nil => exact .nil
  | cons p l ih =>
    rw [distinct, List.nodup_cons]
    exact ⟨by simp [List.mem_filter], ih.filter _⟩

omit [AddMonoid K] in
theorem leastCost_spec (l : Lat K) :
    (l = [] ∧ leastCost l = none) ∨
      ∃ p ∈ l, leastCost l = some p.2 ∧ ∀ q ∈ l, p.2 ≤ q.2 := by
  induction l with
  | nil => exact .inl ⟨rfl, rfl⟩
  | cons p l ih =>
    right
    rcases ih with ⟨rfl, h⟩ | ⟨q, hq, h, hl⟩
    · exact ⟨p, by simp, by simp [leastCost], by simp⟩
    · rw [leastCost, h]
      rcases le_total p.2 q.2 with hpq | hpq
      · exact ⟨p, by simp, by simp [hpq], by
          intro a ha
          rcases List.mem_cons.1 ha with rfl | ha
          · exact le_rfl
          · exact hpq.trans (hl a ha)⟩
      · exact ⟨q, by simp [hq], by simp [hpq], by
          intro a ha
          rcases List.mem_cons.1 ha with rfl | ha
          · exact hpq
          · exact hl a ha⟩

omit [AddMonoid K] in
theorem leastCost_iff {l : Lat K} {p : Str × K} (hp : p ∈ l) :
    leastCost l = some p.2 ↔ ∀ q ∈ l, p.2 ≤ q.2 := by
  rcases leastCost_spec l with ⟨rfl, _⟩ | ⟨q, hq, h, hl⟩
  · cases hp
  · rw [h]
    constructor
    · intro e; injection e with e; rw [← e]; exact hl
    · intro h'; rw [le_antisymm (hl p hp) (h' q hq)]

/-- The whole composition. -/
def full : List (Str → Lat K) → Lat K → Lat K
  | [], l => l
  | f :: fs, l => full fs (compose l f)

omit [LinearOrder K] in
theorem full_nil (fs : List (Str → Lat K)) : full fs [] = [] := by
  induction fs with
  | nil => rfl
  | cons f fs ih => rw [full, show compose ([] : Lat K) f = [] from rfl, ih]

omit [LinearOrder K] in
theorem mem_full (fs : List (Str → Lat K)) (l : Lat K) (z : Str) (c : K) :
    (z, c) ∈ full fs l ↔ ∃ x b d, (x, b) ∈ l ∧ Derives fs x z d ∧ c = b + d := by
  induction fs generalizing l with
  | nil =>
    rw [full]
    constructor
    · intro h; exact ⟨z, c, 0, h, .nil, by rw [add_zero]⟩
    · rintro ⟨x, b, d, h, h2, rfl⟩
      cases h2
      rwa [add_zero]
  | cons f fs ih =>
    rw [full, ih]
    constructor
    · rintro ⟨x, b, d, h, h2, rfl⟩
      obtain ⟨p, hp, hx⟩ := List.mem_flatMap.1 h
      obtain ⟨q, hq, e⟩ := List.mem_map.1 hx
      injection e with e1 e2
      subst e1 e2
      exact ⟨p.1, p.2, q.2 + d, hp, .cons hq h2, by rw [add_assoc]⟩
    · rintro ⟨x, b, d, h, h2, rfl⟩
      cases h2 with
      | cons h3 h4 =>
        rename_i y c' d'
        exact ⟨y, b + c', d', List.mem_flatMap.2 ⟨(x, b), h, List.mem_map.2 ⟨(y, c'), h3, rfl⟩⟩, h4,
          by rw [add_assoc]⟩

omit [LinearOrder K] in
theorem mem_full_one (fs : List (Str → Lat K)) (x z : Str) (c : K) :
    (z, c) ∈ full fs [(x, 0)] ↔ Derives fs x z c := by
  rw [mem_full]
  constructor
  · rintro ⟨x', b, d, h, h2, rfl⟩
    rw [List.mem_singleton] at h
    injection h with h3 h4
    subst h3 h4
    rwa [zero_add]
  · intro h
    exact ⟨x, 0, c, by simp, h, by rw [zero_add]⟩

/-! ## Parsing -/

theorem find_none {s : Str} {c k : Nat} : find s c k = none ↔ c ∉ s.drop k := by
  simp [find, List.idxOf?_eq_none_iff]

theorem find_append {a b : Str} {c k : Nat} (h : c ∉ a.drop k) (hk : k ≤ a.length) :
    find (a ++ c :: b) c k = some a.length := by
  rw [find, List.drop_append_of_le_length hk]
  have : (a.drop k ++ c :: b).idxOf? c = some (a.drop k).length := by
    generalize a.drop k = l at h
    induction l with
    | nil => simp [List.idxOf?_cons]
    | cons x l ih =>
      have hx : x ≠ c := fun e => h (by simp [e])
      rw [List.cons_append, List.idxOf?_cons]
      simp [hx, ih (fun h' => h (by simp [h']))]
  rw [this]
  simp
  omega

theorem findSep_dollar {a b : Str} {k : Nat} (h : dollar ∉ a.drop k) (hk : k ≤ a.length) :
    findSep (a ++ dollar :: b) k = some a.length := by
  rw [findSep, find_append h hk]

theorem findSep_colon {a b : Str} {k : Nat} (h : colon ∉ a.drop k) (hd : dollar ∉ (a ++ colon :: b).drop k)
    (hk : k ≤ a.length) : findSep (a ++ colon :: b) k = some a.length := by
  rw [findSep, find_none.2 hd]
  exact find_append h hk

theorem findSep_none {s : Str} {k : Nat} (h : dollar ∉ s.drop k) (h2 : colon ∉ s.drop k) :
    findSep s k = none := by
  rw [findSep, find_none.2 h]
  exact find_none.2 h2

theorem findSep_some {s : Str} {k p : Nat} (h : findSep s k = some p) :
    k ≤ p ∧ (s[p]? = some dollar ∨ s[p]? = some colon) := by
  have key : ∀ c, find s c k = some p → k ≤ p ∧ s[p]? = some c := by
    intro c h
    rw [find] at h
    obtain ⟨i, hi, rfl⟩ := Option.map_eq_some_iff.1 h
    refine ⟨by omega, ?_⟩
    have := List.idxOf?_eq_some_iff.1 hi
    obtain ⟨h1, h2, _⟩ := this
    have e : (s.drop k)[i]? = some c := by
      rw [List.getElem?_eq_getElem h1]; simpa using h2
    rw [List.getElem?_drop] at e
    rwa [Nat.add_comm]
  rw [findSep] at h
  cases hf : find s dollar k with
  | some q =>
    rw [hf] at h
    injection h with h
    subst h
    have := key dollar hf
    exact ⟨this.1, .inl this.2⟩
  | none =>
    rw [hf] at h
    have := key colon h
    exact ⟨this.1, .inr this.2⟩

theorem parse_plain {n : Str} (h : Plain n) : parseRuleDef n = { main := n } := by
  rw [parseRuleDef, findSep_none (by simpa using h.1) (by simpa using h.2)]

/-- A definition with one separator, found at the end of `n`. -/
theorem parse_one {n p : Str} {c : Nat} (h1 : findSep (n ++ c :: p) 0 = some n.length)
    (h2 : findSep (n ++ c :: p) (n.length + 1) = none) :
    parseRuleDef (n ++ c :: p) = { main := n, parens := p } := by
  rw [parseRuleDef, h1]
  simp only [h2]
  have : (n ++ c :: p).drop (n.length + 1) = p := by simp
  simp [this]

theorem parse_two {n p a : Str} {c d : Nat} (h1 : findSep (n ++ c :: (p ++ d :: a)) 0 = some n.length)
    (h2 : findSep (n ++ c :: (p ++ d :: a)) (n.length + 1) = some (n.length + 1 + p.length)) :
    parseRuleDef (n ++ c :: (p ++ d :: a)) = { main := n, parens := p, assigns := a } := by
  rw [parseRuleDef, h1]
  simp only [h2]
  have e1 : (n ++ c :: (p ++ d :: a)).drop (n.length + 1) = p ++ d :: a := by simp
  have e2 : (n ++ c :: (p ++ d :: a)).drop (n.length + 1 + p.length + 1) = a := by
    have : n.length + 1 + p.length + 1 = (n.length + 1) + (p.length + 1) := by omega
    rw [this, ← List.drop_drop, e1]
    simp
  rw [e1, e2]
  have e3 : n.length + 1 + p.length - n.length - 1 = p.length := by omega
  simp [e3]

theorem split_at {s : Str} {p c : Nat} (h : s[p]? = some c) :
    s = s.take p ++ c :: s.drop (p + 1) := by
  obtain ⟨hp, rfl⟩ := List.getElem?_eq_some_iff.1 h
  rw [← List.drop_eq_getElem_cons hp, List.take_append_drop]

/-! ## Rule definitions in cascades -/

omit [LinearOrder K] in
theorem composeRule_means {m : Map K} {d : Str} {f : Str → Lat K} (h : Means m d f) (b : Bool)
    (l : Lat K) : composeRule b m (parseRuleDef d) l = .ok (compose l f) := by
  cases h with
  | rule h1 h2 =>
    rw [parse_plain h1]
    simp [composeRule, h2]
  | pdt h1 h2 h3 h4 h5 h6 =>
    rename_i n p e q ps
    rw [parse_one (by exact findSep_dollar (by simpa using h1.1) (Nat.zero_le _))
      (by exact findSep_none (by simpa using h2.1) (by simpa using h2.2))]
    simp [composeRule, h4, h5, h3, h6, Res.bind]
  | mpdt h1 h2 h3 h4 h5 h6 h7 h8 h9 h10 =>
    rename_i n p a e q c ps as
    rw [parse_two (by exact findSep_dollar (by simpa using h1.1) (Nat.zero_le _)) (by
      have := findSep_dollar (a := n ++ dollar :: p) (b := a) (k := n.length + 1)
        (by simpa using h2.1) (by simp)
      simpa [Nat.add_comm, Nat.add_left_comm, Nat.add_assoc] using this)]
    simp [composeRule, h6, h7, h8, h3, h5, h9, h10, Res.bind]

omit [AddMonoid K] [LinearOrder K] in
theorem validate_means {m : Map K} {ds : List Str} {fs : List (Str → Lat K)}
    (h : List.Forall₂ (Means m) ds fs) : validate m (ds.map parseRuleDef) = true := by
  rw [validate, List.all_eq_true]
  intro t ht
  obtain ⟨d, hd, rfl⟩ := List.mem_map.1 ht
  clear ht
  have : ∃ f, Means m d f := by
    induction h with
    | nil => cases hd
    | cons h1 _ ih =>
      rcases List.mem_cons.1 hd with rfl | hd
      · exact ⟨_, h1⟩
      · exact ih hd
  obtain ⟨f, hf⟩ := this
  cases hf with
  | rule h1 h2 => rw [parse_plain h1]; simp [h2]
  | pdt h1 h2 h3 h4 h5 h6 =>
    rw [parse_one (by exact findSep_dollar (by simpa using h1.1) (Nat.zero_le _))
      (by exact findSep_none (by simpa using h2.1) (by simpa using h2.2))]
    simp [h4, h5]
  | @mpdt n p a e q c ps as h1 h2 h3 h4 h5 h6 h7 h8 h9 h10 =>
    rw [parse_two (by exact findSep_dollar (by simpa using h1.1) (Nat.zero_le _)) (by
      have := findSep_dollar (a := n ++ dollar :: p) (b := a) (k := n.length + 1)
        (by simpa using h2.1) (by simp)
      simpa [Nat.add_comm, Nat.add_left_comm, Nat.add_assoc] using this)]
    simp [h6, h7, h8]

omit [LinearOrder K] in
theorem cascade_full {m : Map K} {ds : List Str} {fs : List (Str → Lat K)}
    (h : List.Forall₂ (Means m) ds fs) (l : Lat K) :
    (cascade m (ds.map parseRuleDef) l).bind checkNonEmpty =
      if full fs l = [] then .fail else .ok (full fs l) := by
  induction h generalizing l with
  | nil =>
    cases l <;> simp [cascade, Res.bind, checkNonEmpty, full]
  | cons h1 h2 ih =>
    rename_i d f ds fs
    rw [List.map_cons, cascade, rewriteLattice, composeRule_means h1, full]
    cases hl : compose l f with
    | nil => simp [Res.bind, checkNonEmpty, full_nil]
    | cons a b =>
      rw [← ih (a :: b)]
      rfl

omit [LinearOrder K] in
theorem cascadeLattice_full {m : Map K} {ds : List Str} {fs : List (Str → Lat K)}
    (h : List.Forall₂ (Means m) ds fs) (x : Str) :
    cascadeLattice m (ds.map parseRuleDef) x =
      if full fs [(x, 0)] = [] then .fail else .ok (full fs [(x, 0)]) := cascade_full h _

omit [LinearOrder K] in
theorem thraxCascade_full {m : Map K} {ds : List Str} {fs : List (Str → Lat K)}
    (h : List.Forall₂ (Means m) ds fs) (l out : Lat K) :
    thraxCascade m (ds.map parseRuleDef) l out = .ok (if ds = [] then out else full fs l) := by
  induction h generalizing l out with
  | nil => rfl
  | cons h1 h2 ih =>
    rename_i d f ds fs
    rw [List.map_cons, thraxCascade, composeRule_means h1, full]
    simp only [Res.bind]
    rw [ih]
    split
    · subst_vars
      cases h2
      simp [full]
    · simp

/-- Optimal output. -/
def Optimal (fs : List (Str → Lat K)) (x y : Str) : Prop :=
  ∃ c, Derives fs x y c ∧ ∀ z d, Derives fs x z d → c ≤ d

theorem mem_dfa_optimal (fs : List (Str → Lat K)) (x y : Str) :
    y ∈ dfaStrings true (full fs [(x, 0)]) ↔ Optimal fs x y := by
  rw [dfaStrings, if_pos rfl, mem_distinct]
  constructor
  · rintro ⟨c, h⟩
    obtain ⟨h1, h2⟩ := List.mem_filter.1 h
    have h3 := (leastCost_iff h1).1 (by simpa using h2)
    exact ⟨c, (mem_full_one fs x y c).1 h1, fun z d hz => h3 (z, d) ((mem_full_one fs x z d).2 hz)⟩
  · rintro ⟨c, h1, h2⟩
    have h3 := (mem_full_one fs x y c).2 h1
    exact ⟨c, List.mem_filter.2 ⟨h3, by
      simpa using (leastCost_iff h3).2 fun q hq => h2 q.1 q.2 ((mem_full_one fs x q.1 q.2).1 hq)⟩⟩

theorem shortest_spec (fs : List (Str → Lat K)) (x : Str) :
    (full fs [(x, 0)] = [] ∧ shortest (full fs [(x, 0)]) = none) ∨
      ∃ y, shortest (full fs [(x, 0)]) = some y ∧ Optimal fs x y := by
  rcases leastCost_spec (full fs [(x, 0)]) with ⟨h1, _⟩ | ⟨p, hp, h1, h2⟩
  · exact .inl ⟨h1, by rw [h1]; rfl⟩
  · right
    cases hf : (full fs [(x, 0)]).find? fun q => leastCost (full fs [(x, 0)]) = some q.2 with
    | none =>
      have := List.find?_eq_none.1 hf p hp
      simp [h1] at this
    | some q =>
      refine ⟨q.1, by rw [shortest, hf]; rfl, ?_⟩
      have hq := List.mem_of_find?_eq_some hf
      have hq2 := List.find?_some hf
      have h3 := (leastCost_iff hq).1 (by simpa using hq2)
      exact ⟨q.2, (mem_full_one fs x q.1 q.2).1 hq, fun z d hz =>
        h3 (z, d) ((mem_full_one fs x z d).2 hz)⟩

omit [LinearOrder K] in
theorem full_eq_nil (fs : List (Str → Lat K)) (x : Str) :
    full fs [(x, 0)] = [] ↔ ∀ y c, ¬ Derives fs x y c := by
  rw [List.eq_nil_iff_forall_not_mem]
  exact ⟨fun h y c hd => h (y, c) ((mem_full_one fs x y c).2 hd),
    fun h p hp => h p.1 p.2 ((mem_full_one fs x p.1 p.2).1 hp)⟩

omit [LinearOrder K] in
theorem derives_append (fs gs : List (Str → Lat K)) (x z : Str) :
    (∃ c, Derives (fs ++ gs) x z c) ↔ ∃ y, (∃ c, Derives fs x y c) ∧ ∃ d, Derives gs y z d := by
  induction fs generalizing x with
  | nil =>
    constructor
    · rintro ⟨c, h⟩; exact ⟨x, ⟨0, .nil⟩, c, h⟩
    · rintro ⟨y, ⟨c, h⟩, d, h2⟩; cases h; exact ⟨d, h2⟩
  | cons f fs ih =>
    constructor
    · rintro ⟨c, h⟩
      cases h with
      | cons h1 h2 =>
        obtain ⟨y, ⟨c, h3⟩, d, h4⟩ := (ih _).1 ⟨_, h2⟩
        exact ⟨y, ⟨_, .cons h1 h3⟩, d, h4⟩
    · rintro ⟨y, ⟨c, h⟩, d, h2⟩
      cases h with
      | cons h3 h4 =>
        obtain ⟨c', h5⟩ := (ih _).2 ⟨y, ⟨_, h4⟩, d, h2⟩
        exact ⟨_, .cons h3 h5⟩

theorem not_branches_single (y : Str) : branches [y] = false := by
  simp [branches]

end Nisaba.Grm2
