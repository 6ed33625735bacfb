import Verif.Model.LmPieces
import Mathlib.Tactic.Tauto
import Mathlib.Order.Basic
import Mathlib.Algebra.Group.Basic
/-! # Lemmas about word pieces of candidates -/
namespace Nisaba.LmPieces

/-! ## Longest matches -/

/-- The longest non-empty prefix of a word among the words of a trie state, or nothing. -/
def best (st : TrieState) : Str → Str
  | [] => []
  | c :: cs => match next st c with
    | none => []
    | some st' =>
      if best st' cs ≠ [] then c :: best st' cs else if [] ∈ st' then [c] else []

theorem matchLoop_eq (w : Str) : ∀ (st : TrieState) (acc : Str) (len : Nat), len ≤ acc.length →
    matchLoop st acc len w = if best st w = [] then acc.take len else acc ++ best st w := by
  induction w with
  | nil => intro st acc len _; simp [matchLoop, best]
  | cons c cs ih =>
    intro st acc len hl
    unfold matchLoop best
    cases hn : next st c with
    | none => simp
    | some st' =>
      simp only
      rw [ih st' (acc ++ [c]) _ (by split <;> simp <;> omega)]
      by_cases hb : best st' cs = []
      · simp only [hb, ne_eq, not_true_eq_false, if_false, if_true]
        by_cases hf : [] ∈ st'
        · simp only [hf, if_true]
          rw [List.take_of_length_le (by simp)]
          simp
        · simp only [hf, if_false, if_true]
          rw [List.take_append_of_le_length hl]
      · simp [hb]

theorem getMatched_eq (st : TrieState) (w : Str) : getMatched st w = best st w := by
  unfold getMatched
  rw [matchLoop_eq w st [] 0 (by simp)]
  split <;> simp_all

theorem mem_next {st st' : TrieState} {c : Nat} (h : next st c = some st') (s : Str) :
    s ∈ st' ↔ c :: s ∈ st := by
  unfold next at h
  simp only at h
  split at h
  · simp at h
  · simp only [Option.some.injEq] at h
    subst h
    simp only [List.mem_filterMap]
    constructor
    · rintro ⟨t, ht, e⟩
      cases t with
      | nil => simp [strip] at e
      | cons x xs =>
        unfold strip at e
        by_cases hx : x = c
        · simp only [hx, if_true, Option.some.injEq] at e
          rw [← e, ← hx]; exact ht
        · simp [hx] at e
    · intro hs
      exact ⟨_, hs, by simp [strip]⟩

theorem next_none {st : TrieState} {c : Nat} (h : next st c = none) (s : Str) : c :: s ∉ st := by
  unfold next at h
  simp only at h
  split at h
  · rename_i he
    intro hs
    have : s ∈ st.filterMap (strip c) := List.mem_filterMap.2 ⟨_, hs, by simp [strip]⟩
    rw [List.isEmpty_iff.1 he] at this
    simp at this
  · simp at h

theorem best_spec (w : Str) : ∀ st : TrieState,
    best st w <+: w ∧ (best st w ≠ [] → best st w ∈ st) ∧
      ∀ t, t <+: w → t ≠ [] → t ∈ st → t.length ≤ (best st w).length := by
  induction w with
  | nil =>
    intro st
    refine ⟨List.prefix_rfl, fun h => absurd rfl h, fun t ht hne _ => ?_⟩
    simp at ht
    exact absurd ht hne
  | cons c cs ih =>
    intro st
    unfold best
    cases hn : next st c with
    | none =>
      refine ⟨List.nil_prefix, fun h => absurd rfl h, fun t ht hne hm => ?_⟩
      cases t with
      | nil => exact absurd rfl hne
      | cons x xs =>
        obtain ⟨r, hr⟩ := ht
        simp only [List.cons_append, List.cons.injEq] at hr
        rw [hr.1] at hm
        exact absurd hm (next_none hn xs)
    | some st' =>
      obtain ⟨h1, h2, h3⟩ := ih st'
      simp only
      have hlong : ∀ t, t <+: c :: cs → t ≠ [] → t ∈ st → ∃ s, t = c :: s ∧ s ∈ st' ∧ s <+: cs := by
        intro t ht hne hm
        cases t with
        | nil => exact absurd rfl hne
        | cons x xs =>
          obtain ⟨r, hr⟩ := ht
          simp only [List.cons_append, List.cons.injEq] at hr
          rw [hr.1] at hm ⊢
          exact ⟨xs, rfl, (mem_next hn xs).2 hm, ⟨r, hr.2⟩⟩
      by_cases hb : best st' cs = []
      · simp only [hb, ne_eq, not_true_eq_false, if_false]
        have hshort : ∀ t, t <+: c :: cs → t ≠ [] → t ∈ st → t = [c] ∧ [] ∈ st' := by
          intro t ht hne hm
          obtain ⟨s, rfl, hs, hp⟩ := hlong t ht hne hm
          cases s with
          | nil => exact ⟨rfl, hs⟩
          | cons y ys =>
            have := h3 _ hp (by simp) hs
            rw [hb] at this
            simp at this
        by_cases hf : [] ∈ st'
        · simp only [hf, if_true]
          refine ⟨⟨cs, rfl⟩, fun _ => (mem_next hn []).1 hf, fun t ht hne hm => ?_⟩
          simp [(hshort t ht hne hm).1]
        · simp only [hf, if_false]
          exact ⟨List.nil_prefix, fun h => absurd trivial h,
            fun t ht hne hm => absurd (hshort t ht hne hm).2 hf⟩
      · simp only [hb, ne_eq, not_false_eq_true, if_true]
        refine ⟨?_, fun _ => (mem_next hn _).1 (h2 hb), fun t ht hne hm => ?_⟩
        · obtain ⟨r, hr⟩ := h1
          exact ⟨r, by simp [hr]⟩
        · obtain ⟨s, rfl, hs, hp⟩ := hlong t ht hne hm
          cases s with
          | nil => simp
          | cons y ys =>
            have := h3 _ hp (by simp) hs
            simp only [List.length_cons] at this ⊢
            omega

/-! ## The trie -/

/-- Piece symbols: those of the model except the one for unknown words. -/
def IsPiece (syms : Syms) (oov l : Int) (s : Str) : Prop := (l, s) ∈ syms ∧ 0 < l ∧ l ≠ oov

theorem walk_mem {pre : Str} : ∀ {st st' : TrieState}, walk st pre = some st' → ∀ s,
    s ∈ st' ↔ pre ++ s ∈ st := by
  induction pre with
  | nil => intro st st' h s; simp only [walk, Option.some.injEq] at h; simp [h]
  | cons c cs ih =>
    intro st st' h s
    unfold walk at h
    cases hn : next st c with
    | none => rw [hn] at h; simp at h
    | some st1 =>
      rw [hn] at h
      rw [ih h, mem_next hn]; rfl

theorem initTrie_spec {syms : Syms} {oov : Int} {pre : Str} {T : Trie} (h : initTrie syms oov pre = some T) :
    T.syms = syms ∧ T.oov = oov ∧ T.pre = pre ∧ pre ≠ [] ∧
      (∀ s, s ∈ T.root ↔ ∃ l, IsPiece syms oov l s) ∧
      ∀ s, s ∈ T.inner ↔ ∃ l, IsPiece syms oov l (pre ++ s) := by
  unfold initTrie at h
  split at h
  · simp at h
  · rename_i hp
    simp only at h
    have hroot : ∀ s, s ∈ (syms.filter fun p => 0 < p.1 && p.1 != oov).map (·.2) ↔
        ∃ l, IsPiece syms oov l s := by
      intro s
      simp only [List.mem_map, List.mem_filter, Bool.and_eq_true, decide_eq_true_eq, bne_iff_ne, Prod.exists]
      constructor
      · rintro ⟨l, s', ⟨hm, h1, h2⟩, rfl⟩; exact ⟨l, hm, h1, h2⟩
      · rintro ⟨l, hm, h1, h2⟩; exact ⟨l, s, ⟨hm, h1, h2⟩, rfl⟩
    cases hw : walk ((syms.filter fun p => 0 < p.1 && p.1 != oov).map (·.2)) pre with
    | none => rw [hw] at h; simp at h
    | some inner =>
      rw [hw] at h
      simp only [Option.some.injEq] at h
      subst h
      exact ⟨rfl, rfl, rfl, by simpa using hp, hroot, fun s => by rw [walk_mem hw, hroot]⟩

theorem find_spec {syms : Syms} (hd : (syms.map (·.2)).Nodup) {l : Int} {s : Str} (h : (l, s) ∈ syms) :
    syms.find s = l := by
  unfold Syms.find
  induction syms with
  | nil => simp at h
  | cons p t ih =>
    simp only [List.map_cons, List.nodup_cons] at hd
    by_cases hp : p.2 = s
    · have : (p.2 == s) = true := by simp [hp]
      simp only [List.find?_cons, this]
      rcases List.mem_cons.1 h with rfl | h
      · rfl
      · exact absurd (List.mem_map.2 ⟨_, h, hp.symm⟩) hd.1
    · have : ¬ (p.2 == s) = true := by simp [hp]
      simp only [List.find?_cons, this]
      rcases List.mem_cons.1 h with rfl | h
      · exact absurd rfl hp
      · exact ih hd.2 h

theorem find_none {syms : Syms} {s : Str} (h : ∀ l, (l, s) ∉ syms) : syms.find s = -1 := by
  unfold Syms.find
  have : syms.find? (fun p => p.2 == s) = none := by
    rw [List.find?_eq_none]
    intro p hp e
    simp only [beq_iff_eq] at e
    exact h p.1 (by rw [← e]; exact hp)
  rw [this]

/-! ## The transducer -/

variable {K : Type} [AddCommMonoid K]

/-- The arcs that `addLoop` adds; `k` is the number of states before. -/
def chain (k curr il : Nat) (c : K) : List Int → List (Arc K)
  | [] => []
  | [l] => [⟨curr, il, l, c, 0⟩]
  | l :: l' :: ls => ⟨curr, il, l, c, k⟩ :: chain (k + 1) k 0 0 (l' :: ls)

theorem addLoop_eq (ls : List Int) : ∀ (f : Fst K) (curr il : Nat) (c : K),
    addLoop ls f curr il c = ⟨f.n + (ls.length - 1), f.arcs ++ chain f.n curr il c ls⟩ := by
  induction ls with
  | nil => intro f curr il c; simp [addLoop, chain]
  | cons l ls ih =>
    intro f curr il c
    cases ls with
    | nil => simp [addLoop, chain]
    | cons l' ls =>
      unfold addLoop chain
      rw [ih]
      simp
      omega

/-- The state that a chain goes to with the symbols `ls` left, when new states are numbered from `k`. -/
def dest (k : Nat) (ls : List Int) : Nat := if ls = [] then 0 else k

theorem mem_chain (ls : List Int) : ∀ (k curr il : Nat) (c : K) (l : Int) (a : Arc K),
    a ∈ chain k curr il c (l :: ls) ↔ a = ⟨curr, il, l, c, dest k ls⟩ ∨
      ∃ j l' ls', ls.drop j = l' :: ls' ∧ a = ⟨k + j, 0, l', 0, dest (k + j + 1) ls'⟩ := by
  induction ls with
  | nil => intro k curr il c l a; simp [chain, dest]
  | cons l' ls ih =>
    intro k curr il c l a
    unfold chain
    rw [List.mem_cons, ih]
    have e1 : dest k (l' :: ls) = k := by simp [dest]
    rw [e1]
    apply or_congr Iff.rfl
    constructor
    · rintro (rfl | ⟨j, l2, ls2, h, rfl⟩)
      · exact ⟨0, l', ls, rfl, rfl⟩
      · exact ⟨j + 1, l2, ls2, h, by rw [show k + 1 + j = k + (j + 1) by omega]⟩
    · rintro ⟨j, l2, ls2, h, rfl⟩
      cases j with
      | zero =>
        simp only [List.drop_zero, List.cons.injEq] at h
        obtain ⟨rfl, rfl⟩ := h
        exact .inl rfl
      | succ j =>
        exact .inr ⟨j, l2, ls2, h, by rw [show k + 1 + j = k + (j + 1) by omega]⟩

/-- Ways through the transducer that start in a state and end in state 0, with the candidates read, the
symbols written and the cost. -/
inductive Path (f : Fst K) : Nat → List Nat → List Int → K → Prop
  | nil : Path f 0 [] [] 0
  | arc {a : Arc K} {is os c} : a ∈ f.arcs → Path f a.dst is os c →
      Path f a.src (if a.ilabel = 0 then is else a.ilabel :: is) (a.olabel :: os) (a.cost + c)

/-- The transducer of a table of candidates with their cost and symbols; `rem s` are the symbols to be
written from state `s` on. -/
structure Good (f : Fst K) (tab : List (Nat × K × List Int)) (rem : Nat → List Int) : Prop where
  pos : 0 < f.n
  remNe : ∀ s, 0 < s → s < f.n → rem s ≠ []
  fromStart : ∀ a ∈ f.arcs, a.src = 0 → ∃ l ls, (a.ilabel, a.cost, l :: ls) ∈ tab ∧ a.olabel = l ∧
    ((ls = [] ∧ a.dst = 0) ∨ (ls ≠ [] ∧ 0 < a.dst ∧ a.dst < f.n ∧ rem a.dst = ls))
  fromOther : ∀ a ∈ f.arcs, a.src ≠ 0 → a.src < f.n ∧ ∃ l ls, rem a.src = l :: ls ∧ a.ilabel = 0 ∧
    a.cost = 0 ∧ a.olabel = l ∧
    ((ls = [] ∧ a.dst = 0) ∨ (ls ≠ [] ∧ 0 < a.dst ∧ a.dst < f.n ∧ rem a.dst = ls))
  hasStart : ∀ i c l ls, (i, c, l :: ls) ∈ tab → ∃ a ∈ f.arcs, a.src = 0 ∧ a.ilabel = i ∧ a.cost = c ∧
    a.olabel = l ∧ ((ls = [] ∧ a.dst = 0) ∨ (ls ≠ [] ∧ 0 < a.dst ∧ a.dst < f.n ∧ rem a.dst = ls))
  hasOther : ∀ s, 0 < s → s < f.n → ∃ a ∈ f.arcs, a.src = s

theorem Good.new : Good (⟨1, []⟩ : Fst K) [] (fun _ => []) :=
  ⟨by simp, by intro s h1 h2; simp at h2; omega, by simp, by simp, by simp,
    by intro s h1 h2; simp at h2; omega⟩

theorem Good.add {f : Fst K} {tab : List (Nat × K × List Int)} {rem : Nat → List Int} (h : Good f tab rem)
    (i : Nat) (c : K) (ls : List Int) :
    Good (addLoop ls f 0 i c) (tab ++ [(i, c, ls)])
      (fun s => if s < f.n then rem s else ls.tail.drop (s - f.n)) := by
  rw [addLoop_eq]
  cases ls with
  | nil =>
    refine ⟨by simpa using h.pos, ?_, ?_, ?_, ?_, ?_⟩
    · intro s h1 h2
      simp only [List.length_nil, Nat.zero_sub, Nat.add_zero] at h2
      simpa [h2] using h.remNe s h1 h2
    · intro a ha h0
      simp only [chain, List.append_nil] at ha
      obtain ⟨l, ls, hm, ho, hd⟩ := h.fromStart a ha h0
      refine ⟨l, ls, by simp [hm], ho, ?_⟩
      rcases hd with hd | ⟨h1, h2, h3, h4⟩
      · exact .inl hd
      · exact .inr ⟨h1, h2, by simpa using h3, by simp [h3, h4]⟩
    · intro a ha h0
      simp only [chain, List.append_nil] at ha
      obtain ⟨hlt, l, ls, hm, hi, hc, ho, hd⟩ := h.fromOther a ha h0
      refine ⟨by simpa using hlt, l, ls, by simp [hlt, hm], hi, hc, ho, ?_⟩
      rcases hd with hd | ⟨h1, h2, h3, h4⟩
      · exact .inl hd
      · exact .inr ⟨h1, h2, by simpa using h3, by simp [h3, h4]⟩
    · intro i' c' l ls hm
      simp only [List.mem_append, List.mem_singleton, Prod.mk.injEq, reduceCtorEq, and_false, or_false] at hm
      obtain ⟨a, ha, h0, hi, hc, ho, hd⟩ := h.hasStart i' c' l ls hm
      refine ⟨a, by simp [chain, ha], h0, hi, hc, ho, ?_⟩
      rcases hd with hd | ⟨h1, h2, h3, h4⟩
      · exact .inl hd
      · exact .inr ⟨h1, h2, by simpa using h3, by simp [h3, h4]⟩
    · intro s h1 h2
      obtain ⟨a, ha, hs⟩ := h.hasOther s h1 (by simpa using h2)
      exact ⟨a, by simp [chain, ha], hs⟩
  | cons l ls =>
    have hn : f.n + ((l :: ls).length - 1) = f.n + ls.length := by simp
    rw [hn]
    have hpos := h.pos
    -- where a new arc goes
    have hdest : ∀ j ls', ls.drop j = ls' → (ls' = [] ∧ dest (f.n + j) ls' = 0) ∨
        (ls' ≠ [] ∧ 0 < dest (f.n + j) ls' ∧ dest (f.n + j) ls' < f.n + ls.length ∧
          (if dest (f.n + j) ls' < f.n then rem (dest (f.n + j) ls')
            else ls.drop (dest (f.n + j) ls' - f.n)) = ls') := by
      intro j ls' he
      by_cases hl : ls' = []
      · exact .inl ⟨hl, by simp [dest, hl]⟩
      · have hj : j < ls.length := by
          by_contra hj
          rw [List.drop_eq_nil_of_le (by omega)] at he
          exact hl he.symm
        refine .inr ⟨hl, ?_, ?_, ?_⟩
        · simp only [dest, hl, if_false]; omega
        · simp only [dest, hl, if_false]; omega
        · have hnlt : ¬ f.n + j < f.n := by omega
          have hsub : f.n + j - f.n = j := by omega
          simp only [dest, hl, if_false, hnlt, hsub]
          exact he
    refine ⟨by simp only; omega, ?_, ?_, ?_, ?_, ?_⟩
    · intro s h1 h2
      simp only at h2
      by_cases hs : s < f.n
      · simpa [hs] using h.remNe s h1 hs
      · simp only [hs, if_false, List.tail_cons]
        intro he
        have := List.drop_eq_nil_iff.1 he
        omega
    · intro a ha h0
      simp only [List.mem_append] at ha
      rcases ha with ha | ha
      · obtain ⟨l', ls', hm, ho, hd⟩ := h.fromStart a ha h0
        refine ⟨l', ls', by simp [hm], ho, ?_⟩
        rcases hd with hd | ⟨h1, h2, h3, h4⟩
        · exact .inl hd
        · exact .inr ⟨h1, h2, by simp only; omega, by simp [h3, h4]⟩
      · rcases (mem_chain ls _ _ _ _ _ _).1 ha with rfl | ⟨j, l', ls', _, rfl⟩
        · refine ⟨l, ls, by simp, rfl, ?_⟩
          have := hdest 0 ls (by simp)
          simpa using this
        · simp only at h0; omega
    · intro a ha h0
      simp only [List.mem_append] at ha
      rcases ha with ha | ha
      · obtain ⟨hlt, l', ls', hm, hi, hc, ho, hd⟩ := h.fromOther a ha h0
        refine ⟨by simp only; omega, l', ls', by simp [hlt, hm], hi, hc, ho, ?_⟩
        rcases hd with hd | ⟨h1, h2, h3, h4⟩
        · exact .inl hd
        · exact .inr ⟨h1, h2, by simp only; omega, by simp [h3, h4]⟩
      · rcases (mem_chain ls _ _ _ _ _ _).1 ha with rfl | ⟨j, l', ls', he, rfl⟩
        · exact absurd rfl h0
        · have hj : j < ls.length := by
            by_contra hj
            rw [List.drop_eq_nil_of_le (by omega)] at he
            simp at he
          have hnlt : ¬ f.n + j < f.n := by omega
          refine ⟨by simp only; omega, l', ls', by simp [he, hnlt], rfl, rfl, rfl, ?_⟩
          have he' : ls.drop (j + 1) = ls' := by
            rw [← List.drop_drop, he]; rfl
          have := hdest (j + 1) ls' he'
          simpa [Nat.add_assoc] using this
    · intro i' c' l' ls' hm
      simp only [List.mem_append, List.mem_singleton] at hm
      rcases hm with hm | hm
      · obtain ⟨a, ha, h0, hi, hc, ho, hd⟩ := h.hasStart i' c' l' ls' hm
        refine ⟨a, by simp [ha], h0, hi, hc, ho, ?_⟩
        rcases hd with hd | ⟨h1, h2, h3, h4⟩
        · exact .inl hd
        · exact .inr ⟨h1, h2, by simp only; omega, by simp [h3, h4]⟩
      · simp only [Prod.mk.injEq, List.cons.injEq] at hm
        obtain ⟨rfl, rfl, rfl, rfl⟩ := hm
        refine ⟨⟨0, i', l', c', dest f.n ls'⟩, ?_, rfl, rfl, rfl, rfl, ?_⟩
        · exact List.mem_append_right _ ((mem_chain ls' _ _ _ _ _ _).2 (.inl rfl))
        · have := hdest 0 ls' (by simp)
          simpa using this
    · intro s h1 h2
      simp only at h2
      by_cases hs : s < f.n
      · obtain ⟨a, ha, e⟩ := h.hasOther s h1 hs
        exact ⟨a, by simp [ha], e⟩
      · cases he : ls.drop (s - f.n) with
        | nil =>
          have := List.drop_eq_nil_iff.1 he
          omega
        | cons l' ls' =>
          refine ⟨⟨f.n + (s - f.n), 0, l', 0, dest (f.n + (s - f.n) + 1) ls'⟩, ?_, by simp only; omega⟩
          exact List.mem_append_right _ ((mem_chain ls _ _ _ _ _ _).2 (.inr ⟨_, _, _, he, rfl⟩))

/-- What a table of candidates reads and writes. -/
inductive Reads (tab : Nat → K → List Int → Prop) : List Nat → List Int → K → Prop
  | nil : Reads tab [] [] 0
  | cons {i c ls is os d} : tab i c ls → ls ≠ [] → Reads tab is os d →
      Reads tab (i :: is) (ls ++ os) (c + d)

theorem Good.inner {f : Fst K} {tab : List (Nat × K × List Int)} {rem : Nat → List Int} (h : Good f tab rem)
    (n : Nat) : ∀ s, 0 < s → s < f.n → (rem s).length ≤ n → ∀ is os c,
      Path f s is os c ↔ ∃ os', os = rem s ++ os' ∧ Path f 0 is os' c := by
  induction n with
  | zero =>
    intro s h1 h2 h3
    exact absurd (List.length_eq_zero_iff.1 (by omega)) (h.remNe s h1 h2)
  | succ n ih =>
    intro s h1 h2 h3 is os c
    constructor
    · intro hp
      cases hp with
      | nil => omega
      | @arc a is os c ha hp =>
        obtain ⟨-, l, ls, hr, hi, hc, ho, hd⟩ := h.fromOther a ha (by omega)
        rw [hr] at h3 ⊢
        simp only [hi, if_true, hc, zero_add, ho]
        rcases hd with ⟨rfl, hd⟩ | ⟨h4, h5, h6, h7⟩
        · rw [hd] at hp
          exact ⟨os, rfl, hp⟩
        · obtain ⟨os', rfl, hp'⟩ := (ih a.dst h5 h6 (by rw [h7]; simp at h3; omega) _ _ _).1 hp
          exact ⟨os', by rw [h7]; rfl, hp'⟩
    · rintro ⟨os', rfl, hp⟩
      obtain ⟨a, ha, rfl⟩ := h.hasOther s h1 h2
      obtain ⟨-, l, ls, hr, hi, hc, ho, hd⟩ := h.fromOther a ha (by omega)
      have key : Path f a.dst is (ls ++ os') c := by
        rcases hd with ⟨rfl, hd⟩ | ⟨h4, h5, h6, h7⟩
        · rw [hd]; exact hp
        · rw [hr] at h3
          exact (ih a.dst h5 h6 (by rw [h7]; simp at h3; omega) _ _ _).2 ⟨os', by rw [h7], hp⟩
      have := Path.arc ha key
      simp only [hi, if_true, hc, zero_add, ho] at this
      rw [hr]
      exact this

theorem Good.paths {f : Fst K} {tab : List (Nat × K × List Int)} {rem : Nat → List Int} (h : Good f tab rem)
    (hid : ∀ x ∈ tab, x.1 ≠ 0) (is : List Nat) (os : List Int) (c : K) :
    Path f 0 is os c ↔ Reads (fun i c ls => (i, c, ls) ∈ tab) is os c := by
  constructor
  · intro hp
    have : ∀ n is os c, os.length ≤ n → Path f 0 is os c →
        Reads (fun i c ls => (i, c, ls) ∈ tab) is os c := by
      intro n
      induction n with
      | zero =>
        intro is os c hl hp
        generalize hs : (0 : Nat) = s at hp
        cases hp with
        | nil => exact .nil
        | arc _ _ => simp at hl
      | succ n ih =>
        intro is os c hl hp
        generalize hs : (0 : Nat) = s at hp
        cases hp with
        | nil => exact .nil
        | @arc a is os c ha hp =>
          obtain ⟨l, ls, hm, ho, hd⟩ := h.fromStart a ha hs.symm
          have hne := hid _ hm
          simp only at hne
          simp only [hne, if_false]
          simp only [List.length_cons] at hl
          have key : ∃ os', os = ls ++ os' ∧ Path f 0 is os' c := by
            rcases hd with ⟨rfl, hd⟩ | ⟨h4, h5, h6, h7⟩
            · rw [hd] at hp; exact ⟨os, rfl, hp⟩
            · have := (h.inner _ a.dst h5 h6 (Nat.le_refl _) _ _ _).1 hp
              rwa [h7] at this
          obtain ⟨os', rfl, hp'⟩ := key
          rw [ho]
          exact .cons (ls := l :: ls) hm (by simp) (ih _ _ _ (by simp at hl; omega) hp')
    exact this _ is os c (Nat.le_refl _) hp
  · intro hr
    induction hr with
    | nil => exact .nil
    | @cons i c ls is os d hm hne _ ih =>
      cases ls with
      | nil => exact absurd rfl hne
      | cons l ls =>
        obtain ⟨a, ha, h0, hi, hc, ho, hd⟩ := h.hasStart i c l ls hm
        have key : Path f a.dst is (ls ++ os) d := by
          rcases hd with ⟨rfl, hd⟩ | ⟨h4, h5, h6, h7⟩
          · rw [hd]; exact ih
          · exact (h.inner _ a.dst h5 h6 (Nat.le_refl _) _ _ _).2 ⟨os, by rw [h7], ih⟩
        have := Path.arc ha key
        have hne' : i ≠ 0 := hid _ hm
        simp only [hi, hne', if_false, hc, ho, h0] at this
        exact this

/-- The table of the candidates of a context. -/
structure CtxOk (labels : Str → Option (K × List Int)) (eps : Str) (C : Ctx K)
    (tab : List (Nat × K × List Int)) : Prop where
  head : C.cands.head? = some eps
  nodup : C.cands.Nodup
  good : ∃ rem, Good C.fst tab rem
  table : ∀ i c ls, (i, c, ls) ∈ tab ↔ i ≠ 0 ∧ ∃ w, C.cands[i]? = some w ∧ labels w = some (c, ls)

theorem CtxOk.new (labels : Str → Option (K × List Int)) (eps : Str) :
    CtxOk labels eps (Ctx.new eps) [] := by
  refine ⟨rfl, by simp [Ctx.new], ⟨_, Good.new⟩, fun i c ls => ?_⟩
  constructor
  · simp
  · rintro ⟨h0, w, hw, -⟩
    cases i with
    | zero => exact absurd rfl h0
    | succ i => simp [Ctx.new] at hw

theorem CtxOk.add {labels : Str → Option (K × List Int)} {eps : Str} {C C' : Ctx K}
    {tab : List (Nat × K × List Int)} (h : CtxOk labels eps C tab) {w : Str}
    (he : addCand labels C w = some C') :
    ∃ tab', CtxOk labels eps C' tab' ∧ ∀ v, v ∈ C'.cands ↔ v ∈ C.cands ∨ v = w := by
  unfold addCand at he
  split at he
  · rename_i hw
    simp only [Option.some.injEq] at he
    subst he
    refine ⟨tab, h, fun v => ⟨.inl, ?_⟩⟩
    rintro (hv | rfl)
    · exact hv
    · exact hw
  · rename_i hw
    cases hl : labels w with
    | none => rw [hl] at he; simp at he
    | some p =>
      obtain ⟨c, ls⟩ := p
      rw [hl] at he
      simp only [Option.some.injEq] at he
      subst he
      obtain ⟨rem, hg⟩ := h.good
      have hne : C.cands ≠ [] := by
        intro e; have := h.head; rw [e] at this; simp at this
      have hlen : C.cands.length ≠ 0 := fun e => hne (List.length_eq_zero_iff.1 e)
      refine ⟨tab ++ [(C.cands.length, c, ls)], ⟨?_, ?_, ⟨_, hg.add _ _ _⟩, fun i c' ls' => ?_⟩,
        fun v => by simp⟩
      · simp only [List.head?_append, h.head, Option.some_or]
      · rw [List.nodup_append]
        refine ⟨h.nodup, by simp, ?_⟩
        intro a ha b hb
        simp only [List.mem_singleton] at hb
        subst hb
        intro e
        exact hw (e ▸ ha)
      · simp only [List.mem_append, List.mem_singleton, Prod.mk.injEq, h.table]
        constructor
        · rintro (⟨h0, v, hv, hlv⟩ | ⟨rfl, rfl, rfl⟩)
          · refine ⟨h0, v, ?_, hlv⟩
            rw [List.getElem?_append_left (List.getElem?_eq_some_iff.1 hv).1]
            exact hv
          · exact ⟨hlen, w, by simp, hl⟩
        · rintro ⟨h0, v, hv, hlv⟩
          rcases Nat.lt_or_ge i C.cands.length with hi | hi
          · rw [List.getElem?_append_left hi] at hv
            exact .inl ⟨h0, v, hv, hlv⟩
          · rw [List.getElem?_append_right hi] at hv
            have hi' : i - C.cands.length = 0 := by
              have := (List.getElem?_eq_some_iff.1 hv).1
              simpa using this
            rw [hi'] at hv
            simp only [List.getElem?_cons_zero, Option.some.injEq] at hv
            subst hv
            rw [hl] at hlv
            simp only [Option.some.injEq, Prod.mk.injEq] at hlv
            exact .inr ⟨by omega, hlv.1.symm, hlv.2.symm⟩

theorem addCands_ok {labels : Str → Option (K × List Int)} {eps : Str} :
    ∀ (ws : List Str) {C C' : Ctx K} {tab : List (Nat × K × List Int)}, CtxOk labels eps C tab →
      addCands labels ws C = some C' →
      ∃ tab', CtxOk labels eps C' tab' ∧ ∀ v, v ∈ C'.cands ↔ v ∈ C.cands ∨ v ∈ ws
  | [], C, C', tab, h, he => by
    simp only [addCands, Option.some.injEq] at he
    subst he
    exact ⟨tab, h, by simp⟩
  | w :: ws, C, C', tab, h, he => by
    unfold addCands at he
    cases hc : addCand labels C w with
    | none => rw [hc] at he; simp at he
    | some C1 =>
      rw [hc] at he
      obtain ⟨tab1, h1, hm1⟩ := h.add hc
      obtain ⟨tab2, h2, hm2⟩ := addCands_ok ws h1 he
      exact ⟨tab2, h2, fun v => by rw [hm2, hm1, List.mem_cons]; tauto⟩

end Nisaba.LmPieces
