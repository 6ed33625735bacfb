import Verif.Lemmas.Grm2
import Mathlib.Algebra.Order.Monoid.Defs
import Mathlib.Algebra.Ring.Nat
/-!
# C69 – C73: rule definitions, cascades, parentheses, symbol tables

`Derives fs x y c`: `y` is an output of `x` with cost `c` when the transducers `fs` are applied from left to
right; `Means m d f`: the definition `d` names the transducer `f` in the archive `m`; `Optimal fs x y`:
`y` is an output of least cost (Lemmas/Grm2.lean).
-/
namespace Nisaba.Props

open Grm2

variable {K : Type} [AddMonoid K] [LinearOrder K]

/-! ## C69 -/

/-- C69: no character of a definition gets lost. -/
theorem C69_lossless (d : Str) :
    let t := parseRuleDef d
    t = { main := d } ∨
    (∃ c, (c = dollar ∨ c = colon) ∧ d = t.main ++ c :: t.parens ∧ t.assigns = []) ∨
    ∃ c c', (c = dollar ∨ c = colon) ∧ (c' = dollar ∨ c' = colon) ∧
      d = t.main ++ c :: (t.parens ++ c' :: t.assigns) := by
  simp only [parseRuleDef]
  cases h1 : findSep d 0 with
  | none => exact .inl rfl
  | some p =>
    right
    obtain ⟨_, hp⟩ := findSep_some h1
    simp only
    cases h2 : findSep d (p + 1) with
    | none =>
      left
      rcases hp with hp | hp
      · exact ⟨dollar, .inl rfl, split_at hp, rfl⟩
      · exact ⟨colon, .inr rfl, split_at hp, rfl⟩
    | some q =>
      right
      obtain ⟨hpq, hq⟩ := findSep_some h2
      have key : ∀ c, d[q]? = some c → d.drop (p + 1) =
          (d.drop (p + 1)).take (q - p - 1) ++ c :: d.drop (q + 1) := by
        intro c hc
        have hc' : (d.drop (p + 1))[q - p - 1]? = some c := by
          rw [List.getElem?_drop, ← hc]; congr 1; omega
        have := split_at hc'
        rw [List.drop_drop] at this
        have e : p + 1 + (q - p - 1 + 1) = q + 1 := by omega
        rwa [e] at this
      rcases hp with hp | hp <;> rcases hq with hq | hq
      · exact ⟨_, _, .inl rfl, .inl rfl, by rw [← key _ hq]; exact split_at hp⟩
      · exact ⟨_, _, .inl rfl, .inr rfl, by rw [← key _ hq]; exact split_at hp⟩
      · exact ⟨_, _, .inr rfl, .inl rfl, by rw [← key _ hq]; exact split_at hp⟩
      · exact ⟨_, _, .inr rfl, .inr rfl, by rw [← key _ hq]; exact split_at hp⟩

/-- C69: names without separators, alone or joined by separators other than a colon before a dollar
sign, are found again. -/
theorem C69_parse_partial (n p a : Str) (hn : dollar ∉ n ∧ colon ∉ n) (hp : dollar ∉ p ∧ colon ∉ p)
    (ha : dollar ∉ a ∧ colon ∉ a) :
    parseRuleDef n = ⟨n, [], []⟩ ∧
    parseRuleDef (n ++ [dollar] ++ p) = ⟨n, p, []⟩ ∧ parseRuleDef (n ++ [colon] ++ p) = ⟨n, p, []⟩ ∧
    parseRuleDef (n ++ [dollar] ++ p ++ [dollar] ++ a) = ⟨n, p, a⟩ ∧
    parseRuleDef (n ++ [colon] ++ p ++ [colon] ++ a) = ⟨n, p, a⟩ ∧
    parseRuleDef (n ++ [dollar] ++ p ++ [colon] ++ a) = ⟨n, p, a⟩ := by
  have e : ∀ c, n ++ [c] ++ p = n ++ c :: p := by simp
  have e2 : ∀ c c', n ++ [c] ++ p ++ [c'] ++ a = n ++ c :: (p ++ c' :: a) := by simp
  have hdc : dollar ≠ colon := by decide
  rw [e2, e2, e2, e, e]
  refine ⟨parse_plain hn, parse_one (findSep_dollar (by simpa using hn.1) (Nat.zero_le _))
      (findSep_none (by simpa using hp.1) (by simpa using hp.2)),
    parse_one (findSep_colon (by simpa using hn.2) (by simp [hn.1, hp.1, hdc]) (Nat.zero_le _))
      (findSep_none (by simpa using hp.1) (by simpa using hp.2)),
    parse_two (findSep_dollar (by simpa using hn.1) (Nat.zero_le _)) ?_,
    parse_two (findSep_colon (by simpa using hn.2) (by simp [hn.1, hp.1, ha.1, hdc]) (Nat.zero_le _)) ?_,
    parse_two (findSep_dollar (by simpa using hn.1) (Nat.zero_le _)) ?_⟩
  · have := findSep_dollar (a := n ++ dollar :: p) (b := a) (k := n.length + 1) (by simpa using hp.1) (by simp)
    simpa [Nat.add_comm, Nat.add_left_comm, Nat.add_assoc] using this
  · have := findSep_colon (a := n ++ colon :: p) (b := a) (k := n.length + 1) (by simpa using hp.2)
      (by simp [hp.1, ha.1, hdc]) (by simp)
    simpa [Nat.add_comm, Nat.add_left_comm, Nat.add_assoc] using this
  · have := findSep_colon (a := n ++ dollar :: p) (b := a) (k := n.length + 1) (by simpa using hp.2)
      (by simp [hp.1, ha.1, hdc]) (by simp)
    simpa [Nat.add_comm, Nat.add_left_comm, Nat.add_assoc] using this

/-- C69: with dollar signs, names may contain colons. -/
theorem C69_dollar (n p a : Str) (hn : dollar ∉ n) (hp : dollar ∉ p) :
    parseRuleDef (n ++ [dollar] ++ p ++ [dollar] ++ a) = ⟨n, p, a⟩ := by
  have e2 : n ++ [dollar] ++ p ++ [dollar] ++ a = n ++ dollar :: (p ++ dollar :: a) := by simp
  rw [e2]
  refine parse_two (findSep_dollar (by simpa using hn) (Nat.zero_le _)) ?_
  have := findSep_dollar (a := n ++ dollar :: p) (b := a) (k := n.length + 1) (by simpa using hp) (by simp)
  simpa [Nat.add_comm, Nat.add_left_comm, Nat.add_assoc] using this

/-- C69 does not hold for a colon before a dollar sign: the first two names are taken as one. -/
theorem C69_mixed_violated (n p a : Str) (hn : dollar ∉ n) (hp : dollar ∉ p) (ha : dollar ∉ a ∧ colon ∉ a) :
    parseRuleDef (n ++ [colon] ++ p ++ [dollar] ++ a) = ⟨n ++ [colon] ++ p, a, []⟩ := by
  have e2 : n ++ [colon] ++ p ++ [dollar] ++ a = (n ++ [colon] ++ p) ++ dollar :: a := by simp
  have hdc : dollar ≠ colon := by decide
  rw [e2]
  refine parse_one (findSep_dollar (by simp [hn, hp, hdc]) (Nat.zero_le _)) (findSep_none ?_ ?_)
  · rw [List.append_cons _ dollar a, List.drop_left' (by simp; omega)]; exact ha.1
  · rw [List.append_cons _ dollar a, List.drop_left' (by simp; omega)]; exact ha.2

/-- C69: a definition for each theorem. -/
example : parseRuleDef [1, 2, 36, 3, 58, 4] = ⟨[1, 2], [3], [4]⟩ ∧
    parseRuleDef [1, 58, 2, 36, 3] = ⟨[1, 58, 2], [3], []⟩ ∧
    parseRuleDef [1, 58, 36, 3, 36, 36, 5] = ⟨[1, 58], [3], [36, 5]⟩ := by decide

/-! ## C70 -/

section cascade

variable (m : Map K) (old : List Triple) (ds : List Str) (fs : List (Str → Lat K))
  (h : List.Forall₂ (Means m) ds fs) (hne : ds ≠ [])

include h hne

omit [AddMonoid K] [LinearOrder K] in
theorem setRules_means : setRules m old ds = (ds.map parseRuleDef, true) := by
  cases ds with
  | nil => exact absurd rfl hne
  | cons d ds =>
    have := validate_means h
    simp only [List.map_cons] at this
    simp [setRules, this]

/-- C70: `SetRules` accepts the definitions; `Rewrites` returns every string the rules lead to, once, and
fails if there is none. -/
theorem C70_rewrites (x : Str) : ∃ ts, setRules m old ds = (ts, true) ∧
    ((∃ ys, rewrites m ts x = .ok ys ∧ ys ≠ [] ∧ ys.Nodup ∧ ∀ y, y ∈ ys ↔ ∃ c, Derives fs x y c) ∨
      rewrites m ts x = .fail ∧ ∀ y c, ¬ Derives fs x y c) := by
  refine ⟨_, setRules_means m old ds fs h hne, ?_⟩
  rw [rewrites, cascadeLattice_full h]
  split
  · exact .inr ⟨rfl, (full_eq_nil fs x).1 ‹_›⟩
  · rename_i hf
    have key : ∀ y, y ∈ distinct (full fs [(x, 0)]) ↔ ∃ c, Derives fs x y c := fun y => by
      rw [mem_distinct]; exact exists_congr fun c => mem_full_one fs x y c
    refine .inl ⟨_, rfl, ?_, nodup_distinct _, key⟩
    obtain ⟨p, hp⟩ := List.exists_mem_of_ne_nil _ hf
    exact List.ne_nil_of_mem ((mem_distinct _ _).2 ⟨p.2, hp⟩)

/-- C70: `TopRewrites` returns the outputs of least cost, each once. -/
theorem C70_top_rewrites (x : Str) : ∃ ts, setRules m old ds = (ts, true) ∧
    ((∃ ys, topRewrites m ts x = .ok ys ∧ ys.Nodup ∧ ∀ y, y ∈ ys ↔
        ∃ c, Derives fs x y c ∧ ∀ z d, Derives fs x z d → c ≤ d) ∨
      topRewrites m ts x = .fail ∧ ∀ y c, ¬ Derives fs x y c) := by
  refine ⟨_, setRules_means m old ds fs h hne, ?_⟩
  rw [topRewrites, cascadeLattice_full h]
  split
  · exact .inr ⟨rfl, (full_eq_nil fs x).1 ‹_›⟩
  · exact .inl ⟨_, rfl, by rw [dfaStrings, if_pos rfl]; exact nodup_distinct _, mem_dfa_optimal fs x⟩

/-- C70: `TopRewrite` returns an output of least cost, and fails only if there is no output. -/
theorem C70_top_rewrite (x : Str) : ∃ ts, setRules m old ds = (ts, true) ∧
    ((∃ y c, topRewrite m ts x = .ok y ∧ Derives fs x y c ∧ ∀ z d, Derives fs x z d → c ≤ d) ∨
      topRewrite m ts x = .fail ∧ ∀ y c, ¬ Derives fs x y c) := by
  refine ⟨_, setRules_means m old ds fs h hne, ?_⟩
  rw [topRewrite, cascadeLattice_full h]
  split
  · exact .inr ⟨rfl, (full_eq_nil fs x).1 ‹_›⟩
  · rename_i hf
    rcases shortest_spec fs x with ⟨h1, _⟩ | ⟨y, h1, c, h2, h3⟩
    · exact absurd h1 hf
    · exact .inl ⟨y, c, by simp [Res.bind, h1], h2, h3⟩

/-- C70: `OneTopRewrite` returns a string exactly if it is the only output of least cost. -/
theorem C70_one_top (x : Str) : ∃ ts, setRules m old ds = (ts, true) ∧
    (∀ y, Grm2.oneTop m ts x = .ok y ↔ Optimal fs x y ∧ ∀ z, Optimal fs x z → z = y) ∧
    (Grm2.oneTop m ts x ≠ .fatal) := by
  refine ⟨_, setRules_means m old ds fs h hne, ?_⟩
  rw [Grm2.oneTop, oneTopAcceptor, cascadeLattice_full h]
  split
  · rename_i hf
    have h1 := (full_eq_nil fs x).1 hf
    refine ⟨fun y => ⟨fun h => by simp [Res.bind] at h, ?_⟩, by simp [Res.bind]⟩
    rintro ⟨⟨c, h2, _⟩, _⟩
    exact absurd h2 (h1 _ _)
  · have hm := mem_dfa_optimal fs x
    have hn : (dfaStrings true (full fs [(x, 0)])).Nodup := by
      rw [dfaStrings, if_pos rfl]; exact nodup_distinct _
    have run : ∀ ys, (Res.ok (full fs [(x, 0)])).bind (fun l =>
        if branches (dfaStrings true l) then Res.fail else .ok (dfaStrings true l)) =
        (if branches (dfaStrings true (full fs [(x, 0)])) then Res.fail else
          .ok (dfaStrings true (full fs [(x, 0)]))) ∧
        (if branches ys then Res.fail else .ok ys).bind latticeToOneTop = latticeToOneTop ys := by
      refine fun ys => ⟨rfl, ?_⟩
      match ys with
      | [] => cases branches [] <;> rfl
      | [y] => rw [not_branches_single]; rfl
      | a :: b :: l => cases branches (a :: b :: l) <;> rfl
    rw [(run []).1, (run _).2]
    clear run
    generalize dfaStrings true (full fs [(x, 0)]) = ys at hm hn
    match ys, hm, hn with
    | [], hm, _ =>
      exact ⟨fun y => ⟨fun h => (by cases h), fun h => by simpa using (hm y).2 h.1⟩, by simp [latticeToOneTop]⟩
    | [z], hm, _ =>
      refine ⟨fun y => ⟨fun h => ?_, fun h => ?_⟩, by simp [latticeToOneTop]⟩
      · injection h with h
        subst h
        exact ⟨(hm z).1 (by simp), fun w hw => by simpa using (hm w).2 hw⟩
      · rw [h.2 z ((hm z).1 (by simp))]; rfl
    | a :: b :: l, hm, hn =>
      refine ⟨fun y => ⟨fun h => (by cases h), fun h => ?_⟩, by simp [latticeToOneTop]⟩
      have e1 := h.2 a ((hm a).1 (by simp))
      have e2 := h.2 b ((hm b).1 (by simp))
      rw [e1, e2] at hn
      simp at hn

omit [LinearOrder K] in
/-- C70: `Matches` tells whether the rules lead from one string to the other. -/
theorem C70_matches (x y : Str) : ∃ ts b, setRules m old ds = (ts, true) ∧ matches_ m ts x y = .ok b ∧
    (b = true ↔ ∃ c, Derives fs x y c) := by
  refine ⟨_, (full fs [(x, 0)]).any fun p => p.1 = y, setRules_means m old ds fs h hne, ?_, ?_⟩
  · rw [matches_, cascadeLattice_full h]
    split <;> split at * <;> simp_all
  · rw [List.any_eq_true]
    constructor
    · rintro ⟨p, hp, e⟩
      have e : p.1 = y := by simpa using e
      exact ⟨p.2, (mem_full_one fs x y p.2).1 (e ▸ hp)⟩
    · rintro ⟨c, hc⟩
      exact ⟨(y, c), (mem_full_one fs x y c).2 hc, by simp⟩

/-- C70: a cascade rewrites like its first part followed by its second part. -/
theorem C70_split (ds' : List Str) (fs' : List (Str → Lat K)) (h' : List.Forall₂ (Means m) ds' fs')
    (hne' : ds' ≠ []) (x z : Str) :
    (∃ zs, rewrites m (setRules m old (ds ++ ds')).1 x = .ok zs ∧ z ∈ zs) ↔
      ∃ ys y zs, rewrites m (setRules m old ds).1 x = .ok ys ∧ y ∈ ys ∧
        rewrites m (setRules m old ds').1 y = .ok zs ∧ z ∈ zs := by
  have key : ∀ es gs, List.Forall₂ (Means m) es gs → es ≠ [] → ∀ u v,
      (∃ vs, rewrites m (setRules m old es).1 u = .ok vs ∧ v ∈ vs) ↔ ∃ c, Derives gs u v c := by
    intro es gs hg he u v
    obtain ⟨ts, h1, h2⟩ := C70_rewrites m old es gs hg he u
    rw [h1]
    rcases h2 with ⟨ys, h2, _, _, h3⟩ | ⟨h2, h3⟩
    · rw [← h3]
      exact ⟨fun ⟨vs, e, hv⟩ => by rw [h2] at e; injection e with e; exact e ▸ hv, fun hv => ⟨ys, h2, hv⟩⟩
    · rw [h2]
      exact ⟨fun ⟨vs, e, _⟩ => (by cases e), fun ⟨c, hc⟩ => absurd hc (h3 _ _)⟩
  rw [key _ _ (List.rel_append h h') (by simp [hne]), derives_append]
  constructor
  · rintro ⟨y, hy, hz⟩
    obtain ⟨ys, h1, h2⟩ := (key _ _ h hne x y).2 hy
    obtain ⟨zs, h3, h4⟩ := (key _ _ h' hne' y z).2 hz
    exact ⟨ys, y, zs, h1, h2, h3, h4⟩
  · rintro ⟨ys, y, zs, h1, h2, h3, h4⟩
    exact ⟨y, (key _ _ h hne x y).1 ⟨ys, h1, h2⟩, (key _ _ h' hne' y z).1 ⟨zs, h3, h4⟩⟩

end cascade

/-- An archive: rule 1 has the outputs 5 and 5 6 with the same cost, rule 2 doubles the string. -/
def demoMap : Map Nat := loadManager
  [([1], { apply := fun x => if x = [4] then [([5], 1), ([5, 6], 1)] else [] }),
   ([2], { apply := fun x => [(x ++ x, 2), (x, 7)] }),
   (symbolTableKey, { apply := fun _ => [] })]

/-- C70 does not hold for `OneTopRewrite` to an acceptor: a tie between a string and an extension of it is not
noticed. -/
theorem C70_one_top_violated : oneTopAcceptor demoMap [⟨[1], [], []⟩] [4] = .ok [[5], [5, 6]] ∧
    (setRules demoMap [] [[1]]).2 = true := by decide +kernel

theorem demo_means : List.Forall₂ (Means demoMap) [[1], [2]]
    [fun x => if x = [4] then [([5], 1), ([5, 6], 1)] else [], fun x => [(x ++ x, 2), (x, 7)]] :=
  .cons (.rule (e := { apply := fun x => if x = [4] then [([5], 1), ([5, 6], 1)] else [] }) (by decide) rfl)
    (.cons (.rule (e := { apply := fun x => [(x ++ x, 2), (x, 7)] }) (by decide) rfl) .nil)

/-- C70: two rules in a row. -/
example : rewrites demoMap (setRules demoMap [] [[1], [2]]).1 [4] =
    .ok [[5, 5], [5], [5, 6, 5, 6], [5, 6]] ∧
    topRewrites demoMap (setRules demoMap [] [[1], [2]]).1 [4] = .ok [[5, 5], [5, 6, 5, 6]] ∧
    rewrites demoMap (setRules demoMap [] [[1], [2]]).1 [7] = .fail ∧
    Grm2.oneTop demoMap (setRules demoMap [] [[2]]).1 [7] = .ok [7, 7] := by decide +kernel

example (x : Str) := C70_rewrites demoMap [] _ _ demo_means (by simp) x

/-- C70: a rule with parentheses. -/
def parenMap : Map Nat := fun n =>
  if n = [1] then some { apply := fun _ => [], pdt := fun ps x => [(x, ps.length)] }
  else if n = [2] then some { apply := fun _ => [], arcs := [(7, 8), (0, 0), (9, 10)] } else none

example : Means parenMap [1, 36, 2] (fun x => [(x, 2)]) :=
  .pdt (m := parenMap) (n := [1]) (p := [2]) (e := { apply := fun _ => [], pdt := fun ps x => [(x, ps.length)] })
    (ps := [(7, 8), (9, 10)]) (by decide) (by decide) (by decide) rfl rfl rfl

/-! ## C71 -/

/-- C71: a new cascade of the thrax kind and one of the rewrite kind succeed on the same strings, and both
return an output of least cost. -/
theorem C71_agree (m : Map K) (ds : List Str) (fs : List (Str → Lat K))
    (h : List.Forall₂ (Means m) ds fs) (hne : ds ≠ []) (x : Str) :
    ∃ ts ts', setRules m [] ds = (ts, true) ∧ initFromDefs m [] ds = (ts', true) ∧
      ((∃ y y', topRewrite m ts x = .ok y ∧ rewriteBytes m ts' x = .ok y' ∧ Optimal fs x y ∧ Optimal fs x y') ∨
        topRewrite m ts x = .fail ∧ rewriteBytes m ts' x = .fail) := by
  refine ⟨_, _, setRules_means m [] ds fs h hne, (by rw [initFromDefs, List.nil_append, validate_means h] : _ = (ds.map parseRuleDef, true)), ?_⟩
  rw [topRewrite, rewriteBytes, cascadeLattice_full h, thraxCascade_full h, if_neg hne]
  rcases shortest_spec fs x with ⟨h1, h2⟩ | ⟨y, h1, h2⟩
  · right
    simp [Res.bind, h1]
    rfl
  · left
    have : full fs [(x, 0)] ≠ [] := by
      intro e; rw [e] at h1; cases h1
    simp only [if_neg this, Res.bind, h1]
    exact ⟨y, y, rfl, rfl, h2, h2⟩

omit [AddMonoid K] [LinearOrder K] in
/-- C71: `SetRules` succeeds exactly if there is a rule and the archive has every name of every definition;
`InitFromDefs` of a new cascade has no need of a rule. -/
theorem C71_names (m : Map K) (old : List Triple) (ds : List Str) :
    let known : Prop := ∀ d ∈ ds, ∀ n, n = (parseRuleDef d).main ∨
      n ≠ [] ∧ (n = (parseRuleDef d).parens ∨ n = (parseRuleDef d).assigns) → ∃ e, m n = some e
    ((setRules m old ds).2 = true ↔ ds ≠ [] ∧ known) ∧ ((initFromDefs m [] ds).2 = true ↔ known) := by
  have hv : validate m (ds.map parseRuleDef) = true ↔ ∀ d ∈ ds, ∀ n, n = (parseRuleDef d).main ∨
      n ≠ [] ∧ (n = (parseRuleDef d).parens ∨ n = (parseRuleDef d).assigns) → ∃ e, m n = some e := by
    simp only [validate, List.all_map, List.all_eq_true, Function.comp, Bool.and_eq_true, Bool.or_eq_true,
      decide_eq_true_eq, Option.isSome_iff_exists]
    refine forall_congr' fun d => forall_congr' fun _ => ⟨?_, ?_⟩
    · rintro ⟨⟨h1, h2⟩, h3⟩ n (rfl | ⟨h4, rfl | rfl⟩)
      · exact h1
      · exact h2.resolve_left h4
      · exact h3.resolve_left h4
    · intro h
      exact ⟨⟨h _ (.inl rfl), or_iff_not_imp_left.2 fun e => h _ (.inr ⟨e, .inl rfl⟩)⟩,
        or_iff_not_imp_left.2 fun e => h _ (.inr ⟨e, .inr rfl⟩)⟩
  simp only [setRules, initFromDefs, List.nil_append, Bool.and_eq_true, hv, and_true]
  simp

omit [AddMonoid K] [LinearOrder K] in
/-- C71: whatever was set before, after `SetRules` only the new rules count. -/
theorem C71_set_rules (m : Map K) (calls : List (List Str)) (ds : List Str) :
    (calls ++ [ds]).foldl (fun ts d => (setRules m ts d).1) [] = (setRules m [] ds).1 := by
  rw [List.foldl_append]
  rfl

omit [AddMonoid K] [LinearOrder K] in
/-- C71 does not hold for `InitFromDefs`: the rules of all calls are applied one after the other. -/
theorem C71_init_violated (m : Map K) (calls : List (List Str)) :
    calls.foldl (fun ts d => (initFromDefs m ts d).1) [] = (initFromDefs m [] calls.flatten).1 := by
  have : ∀ ts, calls.foldl (fun ts d => (initFromDefs m ts d).1) ts =
      ts ++ calls.flatten.map parseRuleDef := by
    induction calls with
    | nil => simp
    | cons c cs ih => intro ts; rw [List.foldl_cons, ih]; simp [initFromDefs]
  rw [this]
  simp [initFromDefs]

/-- C71: the second set of rules gives another result than a new cascade with it. -/
example : rewriteBytes demoMap ([[[2]], [[2]]].foldl (fun ts d => (initFromDefs demoMap ts d).1) []) [7] =
      .ok [7, 7, 7, 7] ∧
    rewriteBytes demoMap (initFromDefs demoMap [] [[2]]).1 [7] = .ok [7, 7] := by decide +kernel

/-- C71: an empty list of rules is refused by one kind of cascade; the other one accepts it and then fails on
every string. -/
theorem C71_no_rules (m : Map K) (old : List Triple) (x : Str) : (setRules m old []).2 = false ∧
    initFromDefs m [] [] = ([], true) ∧ rewriteBytes m (initFromDefs m [] []).1 x = .fail :=
  ⟨rfl, rfl, rfl⟩

omit [AddMonoid K] [LinearOrder K] in
/-- C71: both managers find the last transducer of a name, except that the symbol table entry is only
found by one of them. -/
theorem C71_load (far : List (Str × Entry K)) (n : Str) (hn : n ≠ symbolTableKey) :
    loadManager far n = (loadArchive far).1 n ∧ loadManager far symbolTableKey = none ∧
    (∀ e, (∃ a b, far = a ++ (n, e) :: b ∧ ∀ q ∈ b, q.1 ≠ n) → loadManager far n = some e) ∧
    ((∀ q ∈ far, q.1 ≠ n) → loadManager far n = none) := by
  have step : ∀ (b : List (Str × Entry K)) (f : Map K), (∀ q ∈ b, q.1 ≠ n) → b.foldl addToMap f n = f n := by
    intro b
    induction b with
    | nil => intros; rfl
    | cons q b ih =>
      intro f hb
      rw [List.foldl_cons, ih _ fun p hp => hb p (by simp [hp])]
      have := hb q (by simp)
      rw [addToMap]
      split
      · rfl
      · simp only [if_neg (Ne.symm this)]
  refine ⟨?_, ?_, ?_, fun h => step far _ h⟩
  · have : ∀ (f g : Map K), f n = g n → far.foldl addToMap f n =
        far.foldl (fun m e n => if n = e.1 then some e.2 else m n) g n := by
      induction far with
      | nil => intro f g h; exact h
      | cons q far ih =>
        intro f g h
        rw [List.foldl_cons, List.foldl_cons]
        refine ih _ _ ?_
        rw [addToMap]
        split
        · rename_i hq
          rw [if_neg (fun e => hn (e.trans hq)), h]
        · simp only [h]
    exact this _ _ rfl
  · have : ∀ (f : Map K), f symbolTableKey = none → far.foldl addToMap f symbolTableKey = none := by
      induction far with
      | nil => intro f h; exact h
      | cons q far ih =>
        intro f h
        rw [List.foldl_cons]
        refine ih _ ?_
        rw [addToMap]
        split
        · exact h
        · rename_i hq
          simp only [if_neg (Ne.symm hq), h]
    exact this _ rfl
  · rintro e ⟨a, b, rfl, hb⟩
    rw [loadManager, List.foldl_append, List.foldl_cons, step b _ hb, addToMap, if_neg hn, if_pos rfl]

/-- C71: the archive of `demoMap`. -/
example : (demoMap [2]).isSome = true ∧ (demoMap symbolTableKey).isNone = true ∧ (demoMap [3]).isNone = true := by
  decide +kernel

/-! ## C72 -/

theorem parensLoop_spec (l acc : List (Nat × Nat)) :
    (∃ p ∈ l, p.1 ≠ 0 ∧ p.1 = p.2) ∧ parensLoop [] l acc = .fatal ∨
      (∀ p ∈ l, p.1 ≠ 0 → p.1 ≠ p.2) ∧
        parensLoop [] l acc = .ok (acc ++ l.filter fun p => p.1 ≠ 0 ∧ p.2 ≠ 0) := by
  induction l generalizing acc with
  | nil => right; simp [parensLoop]
  | cons p l ih =>
    obtain ⟨i, o⟩ := p
    rw [parensLoop]
    by_cases hi : i = 0
    · subst hi
      have : (if (0 : Nat) = 0 ∧ o = 0 then parensLoop [] l acc else
          if (0 : Nat) = 0 then parensLoop [] l acc else
          if o = 0 then parensLoop [] l acc else
          if 0 ∈ ([] : List Nat) then Res.fatal else if o ∈ ([] : List Nat) then Res.fatal else
          if 0 = o then Res.fatal else parensLoop [] l (acc ++ [(0, o)])) = parensLoop [] l acc := by
        by_cases ho : o = 0 <;> simp [ho]
      rw [this]
      rcases ih acc with ⟨⟨p, h1, h2⟩, h3⟩ | ⟨h1, h2⟩
      · exact .inl ⟨⟨p, by simp [h1], h2⟩, h3⟩
      · exact .inr ⟨by simpa using h1, by rw [h2]; simp⟩
    · by_cases ho : o = 0
      · subst ho
        simp only [hi, if_false, if_true, false_and]
        rcases ih acc with ⟨⟨p, h1, h2⟩, h3⟩ | ⟨h1, h2⟩
        · exact .inl ⟨⟨p, by simp [h1], h2⟩, h3⟩
        · exact .inr ⟨by simpa [hi] using h1, by rw [h2]; simp⟩
      · simp only [hi, ho, if_false, false_and, List.not_mem_nil]
        by_cases he : i = o
        · rw [if_pos he]
          exact .inl ⟨⟨(i, o), by simp, hi, he⟩, rfl⟩
        · rw [if_neg he]
          rcases ih (acc ++ [(i, o)]) with ⟨⟨p, h1, h2⟩, h3⟩ | ⟨h1, h2⟩
          · exact .inl ⟨⟨p, by simp [h1], h2⟩, h3⟩
          · refine .inr ⟨?_, by rw [h2]; simp [hi, ho]⟩
            intro p hp
            rcases List.mem_cons.1 hp with rfl | hp
            · exact fun _ => he
            · exact h1 p hp

/-- C72: the pairs are the arcs with two labels, in order; the program ends if both labels of an arc are
the same. -/
theorem C72_parens_partial (arcs : List (Nat × Nat)) :
    (makeParens arcs = .fatal ↔ ∃ p ∈ arcs, p.1 ≠ 0 ∧ p.1 = p.2) ∧
    (∀ ps, makeParens arcs = .ok ps → ps = arcs.filter fun p => p.1 ≠ 0 ∧ p.2 ≠ 0) ∧
    makeParens arcs ≠ .fail := by
  rw [makeParens]
  rcases parensLoop_spec arcs [] with ⟨h1, h2⟩ | ⟨h1, h2⟩
  · rw [h2]; exact ⟨⟨fun _ => h1, fun _ => rfl⟩, fun _ h => (by cases h), by simp⟩
  · rw [h2]
    refine ⟨⟨fun h => (by cases h), fun ⟨p, hp, h3, h4⟩ => absurd h4 (h1 p hp h3)⟩, fun ps h => ?_, by simp⟩
    injection h with h
    simpa using h.symm

/-- C72 does not hold for labels used twice: the set of labels seen is never filled, so that a parenthesis may
belong to two pairs. -/
theorem C72_reuse_violated : makeParens [(7, 8), (7, 9)] = .ok [(7, 8), (7, 9)] ∧
    makeParens [(7, 8), (8, 7)] = .ok [(7, 8), (8, 7)] := by decide

/-- C72: every pair gets the last assignment of its left parenthesis; the program ends if there is
none. -/
theorem C72_assignments (arcs parens : List (Nat × Nat)) :
    ((∃ p ∈ parens, ∀ q ∈ arcs, q.1 = p.1 → q.1 = 0 ∨ q.2 = 0) ∧ makeAssigns arcs parens = .fatal) ∨
    ∃ as, makeAssigns arcs parens = .ok as ∧ List.Forall₂ (fun p a => ∃ l l', arcs = l ++ (p.1, a) :: l' ∧
      p.1 ≠ 0 ∧ a ≠ 0 ∧ ∀ q ∈ l', q.1 = p.1 → q.2 = 0) parens as := by
  have hm : ∀ (arcs : List (Nat × Nat)) (m : Nat → Option Nat) (i : Nat),
      ((∀ q ∈ arcs, q.1 = i → q.1 = 0 ∨ q.2 = 0) ∧ assignMap arcs m i = m i) ∨
      ∃ a l l', assignMap arcs m i = some a ∧ arcs = l ++ (i, a) :: l' ∧ i ≠ 0 ∧ a ≠ 0 ∧
        ∀ q ∈ l', q.1 = i → q.2 = 0 := by
    intro arcs
    induction arcs with
    | nil => intro m i; exact .inl ⟨by simp, rfl⟩
    | cons q arcs ih =>
      intro m i
      obtain ⟨j, o⟩ := q
      rw [assignMap]
      by_cases hz : j = 0 ∨ o = 0
      · rw [if_pos hz]
        rcases ih m i with ⟨h1, h2⟩ | ⟨a, l, l', h1, h2, h3⟩
        · refine .inl ⟨?_, h2⟩
          intro q hq
          rcases List.mem_cons.1 hq with rfl | hq
          · exact fun _ => hz
          · exact h1 q hq
        · exact .inr ⟨a, (j, o) :: l, l', h1, by rw [h2]; rfl, h3⟩
      · rw [if_neg hz]
        rcases ih (fun x => if x = j then some o else m x) i with ⟨h1, h2⟩ | ⟨a, l, l', h1, h2, h3⟩
        · by_cases hj : i = j
          · subst hj
            rw [if_pos rfl] at h2
            have h0 : i ≠ 0 := fun e => hz (.inl e)
            exact .inr ⟨o, [], arcs, h2, rfl, h0, fun e => hz (.inr e), fun q hq e =>
              (h1 q hq e).resolve_left (e ▸ h0)⟩
          · rw [if_neg hj] at h2
            refine .inl ⟨?_, h2⟩
            intro q hq
            rcases List.mem_cons.1 hq with rfl | hq
            · exact fun e => absurd e.symm hj
            · exact h1 q hq
        · exact .inr ⟨a, (j, o) :: l, l', h1, by rw [h2]; rfl, h3⟩
  rw [makeAssigns]
  induction parens with
  | nil => exact .inr ⟨[], rfl, .nil⟩
  | cons p ps ih =>
    rw [assignLoop]
    rcases hm arcs (fun _ => none) p.1 with ⟨h1, h2⟩ | ⟨a, l, l', h1, h2, h3⟩
    · rw [h2]
      exact .inl ⟨⟨p, by simp, h1⟩, rfl⟩
    · rw [h1]
      rcases ih with ⟨⟨q, hq, h4⟩, h5⟩ | ⟨as, h4, h5⟩
      · exact .inl ⟨⟨q, by simp [hq], h4⟩, by simp only [h5]; rfl⟩
      · exact .inr ⟨a :: as, by simp only [h4]; rfl, .cons ⟨l, l', h2, h3⟩ h5⟩

/-- C72: three pairs on two stacks. -/
example : makeParens [(1, 2), (0, 0), (3, 4), (5, 0), (6, 7)] = .ok [(1, 2), (3, 4), (6, 7)] ∧
    makeAssigns [(1, 1), (3, 2), (6, 1), (1, 2)] [(1, 2), (3, 4), (6, 7)] = .ok [2, 2, 1] ∧
    makeAssigns [(1, 1)] [(3, 4)] = .fatal ∧ makeParens [(3, 3)] = .fatal := by decide

/-! ## C73 -/

theorem hexDigit_inj {a b : Nat} (h : hexDigit a = hexDigit b) (ha : a < 16) (hb : b < 16) : a = b := by
  simp only [hexDigit] at h
  split at h <;> split at h <;> omega

/-- C73: the labels of the byte symbol table have different symbols. -/
theorem C73_byte (a b : Nat) (ha : a < 256) (hb : b < 256) (h : byteSymbol a = byteSymbol b) : a = b := by
  have sym : ∀ c, byteSymbol c = epsilonSymbol ∧ c = 0 ∨ byteSymbol c = [c] ∨ byteSymbol c = hex2 c := by
    intro c
    unfold byteSymbol
    by_cases h1 : c = 0
    · exact .inl ⟨if_pos h1, h1⟩
    · rw [if_neg h1]
      by_cases h2 : 32 < c ∧ c < 127
      · exact .inr (.inl (if_pos h2))
      · exact .inr (.inr (if_neg h2))
  have he : epsilonSymbol.length = 9 := by decide
  have hl := congrArg List.length h
  rcases sym a with ⟨e1, h1⟩ | e1 | e1 <;> rcases sym b with ⟨e2, h2⟩ | e2 | e2
  · omega
  · rw [e1, e2, he] at hl; simp at hl
  · rw [e1, e2, he] at hl; simp [hex2] at hl
  · rw [e1, e2, he] at hl; simp at hl
  · rw [e1, e2] at h; simpa using h
  · rw [e1, e2] at hl; simp [hex2] at hl
  · rw [e1, e2, he] at hl; simp [hex2] at hl
  · rw [e1, e2] at hl; simp [hex2] at hl
  · rw [e1, e2] at h
    simp only [hex2, List.cons.injEq, and_true, true_and] at h
    have h1 := hexDigit_inj h.1 (by omega) (by omega)
    have h2 := hexDigit_inj h.2 (by omega) (by omega)
    omega

theorem encodeRaw_length (c : Nat) (h : c < 65536) : (Utf8.encodeRaw c).length ≤ 3 := by
  unfold Utf8.encodeRaw
  by_cases h1 : c < 128
  · simp [h1]
  · by_cases h2 : c < 2048
    · simp [h1, h2]
    · simp [h1, h2, h]

theorem encodeRaw_inj {a b : Nat} (ha : a < 65536) (hb : b < 65536)
    (h : Utf8.encodeRaw a = Utf8.encodeRaw b) : a = b := by
  unfold Utf8.encodeRaw at h
  simp only [ha, hb, if_true] at h
  split at h <;> split at h <;> try split at h
  all_goals try split at h
  all_goals simp at h
  all_goals omega

/-- C73: the labels of the UTF-8 symbol table have different symbols. -/
theorem C73_utf8 (a b : Nat) (ha : a < 65536) (hb : b < 65536) (h : utf8Symbol a = utf8Symbol b) : a = b := by
  have sym : ∀ c, utf8Symbol c = epsilonSymbol ∧ c = 0 ∨ utf8Symbol c = hex4 c ∨
      utf8Symbol c = Utf8.encodeRaw c := by
    intro c
    unfold utf8Symbol
    by_cases h1 : c = 0
    · exact .inl ⟨if_pos h1, h1⟩
    · rw [if_neg h1]
      by_cases h2 : isSpaceOrControl c = true
      · exact .inr (.inl (if_pos h2))
      · exact .inr (.inr (if_neg h2))
  have he : epsilonSymbol.length = 9 := by decide
  have hx : ∀ c, (hex4 c).length = 6 := fun c => rfl
  have hl := congrArg List.length h
  have la := encodeRaw_length a ha
  have lb := encodeRaw_length b hb
  rcases sym a with ⟨e1, h1⟩ | e1 | e1 <;> rcases sym b with ⟨e2, h2⟩ | e2 | e2
  · omega
  · rw [e1, e2, he, hx] at hl; omega
  · rw [e1, e2, he] at hl; omega
  · rw [e1, e2, he, hx] at hl; omega
  · rw [e1, e2] at h
    simp only [hex4, List.cons.injEq, and_true, true_and] at h
    have e1 := hexDigit_inj h.1 (by omega) (by omega)
    have e2 := hexDigit_inj h.2.1 (by omega) (by omega)
    have e3 := hexDigit_inj h.2.2.1 (by omega) (by omega)
    have e4 := hexDigit_inj h.2.2.2 (by omega) (by omega)
    omega
  · rw [e1, e2, hx] at hl; omega
  · rw [e1, e2, he] at hl; omega
  · rw [e1, e2, hx] at hl; omega
  · rw [e1, e2] at h; exact encodeRaw_inj ha hb h

/-- C73: the symbols of bytes are printable. -/
theorem C73_byte_printable (a : Nat) (ha : a < 256) : byteSymbol a ≠ [] ∧ ∀ x ∈ byteSymbol a, 32 < x ∧ x < 127 := by
  have hd : ∀ d, d < 16 → 32 < hexDigit d ∧ hexDigit d < 127 := by
    intro d hd
    unfold hexDigit
    split <;> omega
  unfold byteSymbol
  by_cases h1 : a = 0
  · rw [if_pos h1]; decide
  · rw [if_neg h1]
    by_cases h2 : 32 < a ∧ a < 127
    · rw [if_pos h2]; simpa using h2
    · rw [if_neg h2]
      have e1 := hd (a / 16) (by omega)
      have e2 := hd (a % 16) (by omega)
      simp only [hex2, List.mem_cons, List.not_mem_nil, or_false, ne_eq, reduceCtorEq, not_false_eq_true, true_and]
      rintro x (rfl | rfl | rfl | rfl)
      · decide
      · decide
      · exact e1
      · exact e2

/-- The characters with the property `White_Space` or of category `Cc`, below 65536. -/
def SpaceOrControl (c : Nat) : Prop :=
  c ≤ 0x20 ∨ 0x7F ≤ c ∧ c ≤ 0xA0 ∨ c = 0x1680 ∨ 0x2000 ≤ c ∧ c ≤ 0x200A ∨ c = 0x2028 ∨ c = 0x2029 ∨
    c = 0x202F ∨ c = 0x205F ∨ c = 0x3000

/-- C73: the symbol of a label of the UTF-8 symbol table is printable ASCII or is the encoding of a character
which is not a space or a control character. -/
theorem C73_utf8_printable (a : Nat) (ha : a < 65536) : utf8Symbol a ≠ [] ∧
    ((∀ x ∈ utf8Symbol a, 32 < x ∧ x < 127) ∨ ¬ SpaceOrControl a ∧ utf8Symbol a = Utf8.encodeRaw a) := by
  have hd : ∀ d, d < 16 → 32 < hexDigit d ∧ hexDigit d < 127 := by
    intro d hd
    unfold hexDigit
    split <;> omega
  unfold utf8Symbol
  by_cases h1 : a = 0
  · rw [if_pos h1]; exact ⟨by decide, .inl (by decide)⟩
  · rw [if_neg h1]
    by_cases h2 : isSpaceOrControl a = true
    · rw [if_pos h2]
      refine ⟨by simp [hex4], .inl ?_⟩
      have e1 := hd (a / 4096) (by omega)
      have e2 := hd (a / 256 % 16) (by omega)
      have e3 := hd (a / 16 % 16) (by omega)
      have e4 := hd (a % 16) (by omega)
      simp only [hex4, List.mem_cons, List.not_mem_nil, or_false]
      rintro x (rfl | rfl | rfl | rfl | rfl | rfl)
      · decide
      · decide
      · exact e1
      · exact e2
      · exact e3
      · exact e4
    · rw [if_neg h2]
      refine ⟨?_, .inr ⟨?_, rfl⟩⟩
      · unfold Utf8.encodeRaw
        split
        · simp
        · split
          · simp
          · simp
      · simp only [isSpaceOrControl, Bool.or_eq_true, decide_eq_true_eq, beq_iff_eq] at h2
        unfold SpaceOrControl
        omega

/-- C73: some symbols. -/
example : byteSymbol 65 = [65] ∧ byteSymbol 10 = [48, 120, 48, 97] ∧ utf8Symbol 0x3000 = [48, 120, 51, 48, 48, 48] ∧
    utf8Symbol 0x915 = [0xE0, 0xA4, 0x95] := by decide

end Nisaba.Props
