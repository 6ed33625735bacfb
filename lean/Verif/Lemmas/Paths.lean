import Verif.Model.Paths
import Mathlib.Data.List.Basic
import Mathlib.Data.Finset.Card
import Mathlib.Data.Finset.Range
import Mathlib.Logic.Relation
import Mathlib.Data.List.Lex
import Mathlib.Algebra.BigOperators.Group.List.Basic
/-! # The path iterator walks the tree of paths -/
namespace Nisaba.Paths

open Fst (Arc)

variable {W : Type} [MonoidWithZero W] [DecidableEq W]

/-- An arc from one state to another. -/
def Edge (F : WFst W) (s t : Nat) : Prop := ∃ a ∈ F.arcs s, a.next = t

/-- Arc numbers of a path from a state to a final state. -/
inductive Accepts (F : WFst W) : Nat → List Nat → Prop
  | nil {s} : F.final s ≠ 0 → Accepts F s []
  | cons {s i a p} : (F.arcs s)[i]? = some a → Accepts F a.next p → Accepts F s (i :: p)

/-- Input labels, output labels and weight along a path. -/
def readout (F : WFst W) : Nat → List Nat → Out W
  | s, [] => ([], [], F.final s)
  | s, i :: p =>
    match (F.arcs s)[i]? with
    | none => ([], [], 0)
    | some a =>
      let r := readout F a.next p
      (a.ilabel :: r.1, a.olabel :: r.2.1, a.weight * r.2.2)

/-- Paths with at most `n` arcs. -/
def pathsN (F : WFst W) : Nat → Nat → List (List Nat)
  | 0, s => if F.final s = 0 then [] else [[]]
  | n + 1, s =>
    (if F.final s = 0 then [] else [[]]) ++
      (List.zipIdx (F.arcs s)).flatMap fun p => (pathsN F n p.1.next).map (p.2 :: ·)

/-- Arcs lead to states of smaller rank. -/
def Ranked (F : WFst W) (r : Nat → Nat) : Prop := ∀ s, ∀ a ∈ F.arcs s, r a.next < r s

variable {F : WFst W} {r : Nat → Nat}

theorem Ranked.zero (h : Ranked F r) {s : Nat} (hs : r s = 0) : F.arcs s = [] :=
  List.eq_nil_iff_forall_not_mem.2 fun a ha => by have := h s a ha; omega

theorem zipIdx_mem {α : Type} {l : List α} {a : α} {i : Nat} :
    (a, i) ∈ l.zipIdx ↔ l[i]? = some a := by
  rw [List.mk_mem_zipIdx_iff_getElem?]

theorem pathsN_stable (h : Ranked F r) : ∀ n m s, r s ≤ n → r s ≤ m → pathsN F n s = pathsN F m s := by
  have key : ∀ n s, r s ≤ n → pathsN F n s = pathsN F (n + 1) s := by
    intro n
    induction n with
    | zero =>
      intro s hs
      simp [pathsN, h.zero (Nat.le_zero.1 hs)]
    | succ n ih =>
      intro s hs
      rw [pathsN, pathsN]
      congr 1
      refine List.flatMap_congr fun p hp => ?_
      have := h s p.1 (List.mem_of_getElem? (zipIdx_mem.1 hp))
      rw [ih p.1.next (by omega)]
  have up : ∀ d n s, r s ≤ n → pathsN F n s = pathsN F (n + d) s := by
    intro d
    induction d with
    | zero => intros; rfl
    | succ d ih => intro n s hs; rw [ih n s hs, key (n + d) s (by omega)]; rfl
  intro n m s hn hm
  rcases Nat.le_total n m with hnm | hnm
  · obtain ⟨d, rfl⟩ := Nat.exists_eq_add_of_le hnm
    exact up d n s hn
  · obtain ⟨d, rfl⟩ := Nat.exists_eq_add_of_le hnm
    exact (up d m s hm).symm

/-- Paths from a state, in the order of arc numbers. -/
def paths (F : WFst W) (r : Nat → Nat) (s : Nat) : List (List Nat) := pathsN F (r s) s

/-- Paths through the arcs `l`, the first of which has number `k`. -/
def via (F : WFst W) (r : Nat → Nat) : List (Arc W) → Nat → List (List Nat)
  | [], _ => []
  | a :: l, k => (paths F r a.next).map (k :: ·) ++ via F r l (k + 1)

theorem via_eq (l : List (Arc W)) (k : Nat) :
    via F r l k = (l.zipIdx k).flatMap fun p => (paths F r p.1.next).map (p.2 :: ·) := by
  induction l generalizing k with
  | nil => rfl
  | cons a l ih => rw [via, ih, List.zipIdx_cons, List.flatMap_cons]

theorem paths_eq (h : Ranked F r) (s : Nat) :
    paths F r s = (if F.final s = 0 then [] else [[]]) ++ via F r (F.arcs s) 0 := by
  rw [paths, pathsN_stable h (r s) (r s + 1) s le_rfl (by omega), pathsN, via_eq]
  congr 1
  refine List.flatMap_congr fun p hp => ?_
  have := h s p.1 (List.mem_of_getElem? (zipIdx_mem.1 hp))
  rw [paths, pathsN_stable h (r s) (r p.1.next) p.1.next (by omega) le_rfl]

theorem mem_via {l : List (Arc W)} {k : Nat} {p : List Nat} :
    p ∈ via F r l k ↔ ∃ i q a, p = (k + i) :: q ∧ l[i]? = some a ∧ q ∈ paths F r a.next := by
  induction l generalizing k with
  | nil => simp [via]
  | cons b l ih =>
    rw [via, List.mem_append, ih, List.mem_map]
    constructor
    · rintro (⟨q, hq, rfl⟩ | ⟨i, q, a, rfl, h1, h2⟩)
      · exact ⟨0, q, b, rfl, rfl, hq⟩
      · exact ⟨i + 1, q, a, by rw [Nat.add_assoc, Nat.add_comm 1], by simpa using h1, h2⟩
    · rintro ⟨i, q, a, rfl, h1, h2⟩
      cases i with
      | zero => exact .inl ⟨q, by simp at h1; exact h1 ▸ h2, rfl⟩
      | succ i => exact .inr ⟨i, q, a, by rw [Nat.add_assoc, Nat.add_comm 1], by simpa using h1, h2⟩

theorem mem_paths (h : Ranked F r) (s : Nat) (p : List Nat) : p ∈ paths F r s ↔ Accepts F s p := by
  induction p generalizing s with
  | nil =>
    rw [paths_eq h, List.mem_append]
    constructor
    · rintro (h' | h')
      · split at h'
        · simp at h'
        · exact .nil ‹_›
      · obtain ⟨_, _, _, h', _⟩ := mem_via.1 h'
        cases h'
    · rintro ⟨h'⟩
      exact .inl (by rw [if_neg (by assumption)]; simp)
  | cons i p ih =>
    rw [paths_eq h, List.mem_append]
    constructor
    · rintro (h' | h')
      · split at h' <;> simp at h'
      · obtain ⟨j, q, a, e, h1, h2⟩ := mem_via.1 h'
        rw [Nat.zero_add] at e
        injection e with e1 e2
        subst e1 e2
        exact .cons h1 ((ih _).1 h2)
    · intro h'
      cases h' with
      | cons h1 h2 => exact .inr (mem_via.2 ⟨i, p, _, by rw [Nat.zero_add], h1, (ih _).2 h2⟩)

theorem paths_sorted (h : Ranked F r) : ∀ n s, r s ≤ n → (paths F r s).Pairwise (· < ·) := by
  intro n
  induction n with
  | zero =>
    intro s hs
    rw [paths_eq h, h.zero (Nat.le_zero.1 hs)]
    split <;> simp [via]
  | succ n ih =>
    intro s hs
    rw [paths_eq h, List.pairwise_append]
    refine ⟨by split <;> simp, ?_, ?_⟩
    · have : ∀ l k, (∀ a ∈ l, r a.next ≤ n) → (via F r l k).Pairwise (· < ·) := by
        intro l
        induction l with
        | nil => intros; exact .nil
        | cons a l ihl =>
          intro k hl
          rw [via, List.pairwise_append]
          refine ⟨?_, ihl _ fun b hb => hl b (by simp [hb]), ?_⟩
          · rw [List.pairwise_map]
            exact (ih a.next (hl a (by simp))).imp fun hpq => List.cons_lt_cons_iff.2 (.inr ⟨rfl, hpq⟩)
          · intro p hp q hq
            obtain ⟨p', _, rfl⟩ := List.mem_map.1 hp
            obtain ⟨i, q', _, rfl, _, _⟩ := mem_via.1 hq
            exact List.cons_lt_cons_iff.2 (.inl (by omega))
      exact this _ _ fun a ha => by have := h s a ha; omega
    · intro p hp q hq
      obtain ⟨i, q', _, rfl, _, _⟩ := mem_via.1 hq
      split at hp
      · simp at hp
      · rw [List.mem_singleton.1 hp]; exact List.nil_lt_cons _ _

/-! ## Stacks -/

/-- A state of the stack, the number of the arc taken from it, and the arc. -/
structure Frame (W : Type) where
  state : Nat
  idx : Nat
  arc : Arc W

/-- The stack leads from `s0` to `s`. -/
def Chain (F : WFst W) (s0 : Nat) : List (Frame W) → Nat → Prop
  | [], s => s = s0
  | f :: fr, s => (F.arcs f.state)[f.idx]? = some f.arc ∧ f.arc.next = s ∧ Chain F s0 fr f.state

/-- Arc numbers of a stack. -/
def pre (fr : List (Frame W)) : List Nat := (fr.map (·.idx)).reverse

/-- Paths after the arcs taken. -/
def rest (F : WFst W) (r : Nat → Nat) : List (Frame W) → List (List Nat)
  | [] => []
  | f :: fr =>
    (via F r ((F.arcs f.state).drop (f.idx + 1)) (f.idx + 1)).map (pre fr ++ ·) ++ rest F r fr

/-- The iterator has taken the arcs of the stack. -/
structure Mid (fr : List (Frame W)) (it : It W) : Prop where
  states : it.states = fr.map (·.state)
  offsets : it.offsets = fr.map fun f => (f.idx : Int)
  ils : it.ils = fr.map (·.arc.ilabel)
  ols : it.ols = fr.map (·.arc.olabel)
  weights : it.weights = fr.map (·.arc.weight)
  pop : it.pop = true

/-- The iterator presents the path that ends in the final state `s`. -/
structure AtFinal (F : WFst W) (s : Nat) (fr : List (Frame W)) (it : It W) : Prop where
  final : F.final s ≠ 0
  states : it.states = s :: fr.map (·.state)
  offsets : it.offsets = -1 :: fr.map fun f => (f.idx : Int)
  ils : it.ils = fr.map (·.arc.ilabel)
  ols : it.ols = fr.map (·.arc.olabel)
  weights : it.weights = F.final s :: fr.map (·.arc.weight)
  pop : it.pop = false

theorem readout_chain {s0 : Nat} (fr : List (Frame W)) (s : Nat) (h : Chain F s0 fr s) (p : List Nat) :
    readout F s0 (pre fr ++ p) =
      ((fr.map (·.arc.ilabel)).reverse ++ (readout F s p).1,
       (fr.map (·.arc.olabel)).reverse ++ (readout F s p).2.1,
       (fr.map (·.arc.weight)).reverse.prod * (readout F s p).2.2) := by
  induction fr generalizing s p with
  | nil => cases h; simp [pre]
  | cons f fr ih =>
    obtain ⟨h1, h2, h3⟩ := h
    have := ih f.state h3 (f.idx :: p)
    have e : pre (f :: fr) ++ p = pre fr ++ f.idx :: p := by simp [pre]
    rw [e, this]
    simp only [readout, h1, h2]
    simp [mul_assoc]

theorem foldl_mul (l : List W) (a : W) : l.foldl (· * ·) a = a * l.prod := by
  induction l generalizing a with
  | nil => simp
  | cons b l ih => simp [ih, mul_assoc]

theorem AtFinal.out {s0 s : Nat} {fr : List (Frame W)} {it : It W} (h : AtFinal F s fr it)
    (hc : Chain F s0 fr s) : it.out = readout F s0 (pre fr) := by
  have := readout_chain fr s hc []
  rw [List.append_nil] at this
  rw [this]
  simp only [It.out, h.ils, h.ols, h.weights, readout, List.append_nil, List.reverse_cons,
    foldl_mul, one_mul, List.prod_append, List.prod_singleton]

/-- Every state that arcs lead to has a path to a final state. -/
def CoAcc (F : WFst W) (s0 : Nat) : Prop :=
  ∀ s, Relation.ReflTransGen (Edge F) s0 s → ∃ p, Accepts F s p

theorem Chain.reach {s0 : Nat} : ∀ {fr : List (Frame W)} {s : Nat}, Chain F s0 fr s →
    Relation.ReflTransGen (Edge F) s0 s
  | [], _, h => h ▸ .refl
  | _ :: _, _, ⟨h1, h2, h3⟩ => h3.reach.tail ⟨_, List.mem_of_getElem? h1, h2⟩

theorem paths_ne (h : Ranked F r) {s0 s : Nat} (hc : CoAcc F s0)
    (hs : Relation.ReflTransGen (Edge F) s0 s) : paths F r s ≠ [] := by
  obtain ⟨p, hp⟩ := hc s hs
  exact List.ne_nil_of_mem ((mem_paths h s p).2 hp)

/-- Paths that extend the stack, and those after it. -/
def ahead (F : WFst W) (r : Nat → Nat) (s : Nat) (fr : List (Frame W)) : List (List Nat) :=
  (via F r (F.arcs s) 0).map (pre fr ++ ·) ++ rest F r fr

theorem forward_spec (h : Ranked F r) {s0 : Nat} (hc : CoAcc F s0) :
    ∀ n s fr (it : It W), r s < n → Chain F s0 fr s → Mid fr it →
      ∃ it' s' fr', forward F n s it = some it' ∧ AtFinal F s' fr' it' ∧ Chain F s0 fr' s' ∧
        (paths F r s).map (pre fr ++ ·) ++ rest F r fr = pre fr' :: ahead F r s' fr' := by
  intro n
  induction n with
  | zero => intro s _ _ hn; omega
  | succ n ih =>
    intro s fr it hn hch hm
    rw [forward]
    by_cases hf : F.final s = 0
    · rw [if_pos hf]
      have hne := paths_ne h hc hch.reach
      rw [paths_eq h, if_pos hf, List.nil_append] at hne
      cases ha : F.arcs s with
      | nil => rw [ha] at hne; exact absurd rfl hne
      | cons a l =>
        have hr := h s a (by rw [ha]; simp)
        obtain ⟨it', s', fr', h1, h2, h3, h4⟩ := ih a.next (⟨s, 0, a⟩ :: fr)
          (visit a { it with states := s :: it.states, offsets := 0 :: it.offsets }) (by omega)
          ⟨by simp [ha], rfl, hch⟩
          ⟨by simp [visit, hm.states], by simp [visit, hm.offsets], by simp [visit, hm.ils],
            by simp [visit, hm.ols], by simp [visit, hm.weights], by simp [visit, hm.pop]⟩
        refine ⟨it', s', fr', h1, h2, h3, ?_⟩
        rw [← h4, paths_eq h s, if_pos hf, ha, List.nil_append, via, rest, ha]
        simp [pre, List.map_map, Function.comp_def]
    · rw [if_neg hf]
      refine ⟨_, s, fr, rfl, ⟨hf, by simp [hm.states], by simp [hm.offsets], hm.ils, hm.ols,
        by simp [hm.weights], rfl⟩, hch, ?_⟩
      rw [paths_eq h, if_neg hf, ahead]
      simp

/-- The iterator of `Done()`. -/
def Ended (it : It W) : Prop := it = { pop := true }

theorem drop_of_getElem? {α : Type} {l : List α} {i : Nat} {a : α} (h : l[i]? = some a) :
    l.drop i = a :: l.drop (i + 1) := by
  obtain ⟨hi, rfl⟩ := List.getElem?_eq_some_iff.1 h
  exact List.drop_eq_getElem_cons hi

theorem back_spec (h : Ranked F r) {s0 : Nat} (hc : CoAcc F s0) :
    ∀ fr s (it : It W), Chain F s0 fr s → Mid fr it →
      (rest F r fr = [] ∧ back F (fr.map (·.state)) it = some ({ pop := true }, none)) ∨
      ∃ it' s' fr', back F (fr.map (·.state)) it = some (it', some s') ∧ Chain F s0 fr' s' ∧ Mid fr' it' ∧
        rest F r fr = (paths F r s').map (pre fr' ++ ·) ++ rest F r fr' := by
  intro fr
  induction fr with
  | nil =>
    intro s it _ hm
    refine .inl ⟨rfl, ?_⟩
    obtain ⟨h1, h2, h3, h4, h5, h6⟩ := hm
    cases it
    simp_all [back]
  | cons f fr ih =>
    intro s it hch hm
    obtain ⟨c1, c2, c3⟩ := hch
    have hoff : it.offsets = (f.idx : Int) :: fr.map fun f => (f.idx : Int) := by rw [hm.offsets]; rfl
    have hto : ((f.idx : Int) + 1).toNat = f.idx + 1 := by omega
    have hmp : maybePop it = some { it with
        ils := fr.map (·.arc.ilabel), ols := fr.map (·.arc.olabel) } := by
      simp [maybePop, hm.pop, hm.ils, hm.ols, pop?]
    have hw : pop? it.weights = some (fr.map (·.arc.weight)) := by rw [hm.weights]; rfl
    rw [List.map_cons, back, hoff]
    simp only [hto]
    cases ha : (F.arcs f.state)[f.idx + 1]? with
    | none =>
      simp only [hmp, hw, Option.bind_eq_bind, Option.bind_some]
      have hrest : rest F r (f :: fr) = rest F r fr := by
        rw [rest, List.drop_eq_nil_of_le (List.getElem?_eq_none_iff.1 ha)]
        simp [via]
      rw [hrest]
      exact ih f.state _ c3 ⟨rfl, rfl, rfl, rfl, rfl, hm.pop⟩
    | some a =>
      simp only [hmp, hw, Option.bind_eq_bind, Option.bind_some]
      refine .inr ⟨_, a.next, ⟨f.state, f.idx + 1, a⟩ :: fr, rfl, ⟨ha, rfl, c3⟩, ⟨?_, ?_, ?_, ?_, ?_, ?_⟩, ?_⟩
      · simp [visit, hm.states]
      · simp [visit]
      · simp [visit]
      · simp [visit]
      · simp [visit]
      · simp [visit, hm.pop]
      · rw [rest, drop_of_getElem? ha, via, rest]
        simp [pre, List.map_map, Function.comp_def]

theorem back_final (h : Ranked F r) {s0 : Nat} (hc : CoAcc F s0) (s : Nat) (fr : List (Frame W))
    (it : It W) (hch : Chain F s0 fr s) (hst : it.states = s :: fr.map (·.state))
    (hoff : it.offsets = -1 :: fr.map fun f => (f.idx : Int)) (hi : it.ils = fr.map (·.arc.ilabel))
    (ho : it.ols = fr.map (·.arc.olabel)) (w : W) (hws : it.weights = w :: fr.map (·.arc.weight))
    (hpop : it.pop = false) :
    (ahead F r s fr = [] ∧ back F it.states it = some ({ pop := true }, none)) ∨
      ∃ it' s' fr', back F it.states it = some (it', some s') ∧ Chain F s0 fr' s' ∧ Mid fr' it' ∧
        ahead F r s fr = (paths F r s').map (pre fr' ++ ·) ++ rest F r fr' := by
  have hmp : maybePop it = some { it with pop := true } := by simp [maybePop, hpop]
  have hw : pop? it.weights = some (fr.map (·.arc.weight)) := by rw [hws]; rfl
  have hto : ((-1 : Int) + 1).toNat = 0 := rfl
  rw [hst, back, hoff]
  simp only [hto]
  cases ha : (F.arcs s)[0]? with
  | none =>
    simp only [hmp, hw, Option.bind_eq_bind, Option.bind_some]
    have hs : F.arcs s = [] := by simpa using ha
    have : ahead F r s fr = rest F r fr := by rw [ahead, hs]; simp [via]
    rw [this]
    exact back_spec h hc fr s _ hch ⟨rfl, rfl, hi, ho, rfl, rfl⟩
  | some a =>
    simp only [hmp, hw, Option.bind_eq_bind, Option.bind_some]
    refine .inr ⟨_, a.next, ⟨s, 0, a⟩ :: fr, rfl, ⟨ha, rfl, hch⟩, ⟨?_, ?_, ?_, ?_, ?_, ?_⟩, ?_⟩
    · simp [visit, hst]
    · simp [visit]
    · simp [visit, hi]
    · simp [visit, ho]
    · simp [visit]
    · simp [visit]
    · have hd := drop_of_getElem? ha
      rw [List.drop_zero] at hd
      rw [ahead, rest]
      simp only [Nat.zero_add]
      rw [hd, via]
      simp [pre, List.map_map, Function.comp_def]

/-- The iterator presents the path `q`, and `l` is to come; or it is a new iterator at a final state. -/
def Cur (F : WFst W) (r : Nat → Nat) (s0 : Nat) (q : List Nat) (l : List (List Nat)) (it : It W) : Prop :=
  ∃ s fr, AtFinal F s fr it ∧ Chain F s0 fr s ∧ q = pre fr ∧ l = ahead F r s fr

theorem step_spec (h : Ranked F r) {s0 : Nat} (hc : CoAcc F s0) (N : Nat) (hN : ∀ s, r s < N)
    (s : Nat) (fr : List (Frame W)) (it : It W) (hch : Chain F s0 fr s)
    (hst : it.states = s :: fr.map (·.state))
    (hoff : it.offsets = -1 :: fr.map fun f => (f.idx : Int)) (hi : it.ils = fr.map (·.arc.ilabel))
    (ho : it.ols = fr.map (·.arc.olabel)) (w : W) (hws : it.weights = w :: fr.map (·.arc.weight))
    (hpop : it.pop = false) :
    (ahead F r s fr = [] ∧ next F N it = some { pop := true }) ∨
      ∃ it' q l, next F N it = some it' ∧ ahead F r s fr = q :: l ∧ Cur F r s0 q l it' := by
  have hd : it.done = false := by simp [It.done, hst]
  have e : next F N it = advance F N (back F it.states it) := by
    rw [next, hd, hoff]
    simp
  rw [e]
  rcases back_final h hc s fr it hch hst hoff hi ho w hws hpop with ⟨h1, h2⟩ | ⟨it', s', fr', h1, h2, h3, h4⟩
  · left
    rw [h2]
    exact ⟨h1, rfl⟩
  · right
    rw [h1, h4]
    obtain ⟨it2, s2, fr2, g1, g2, g3, g4⟩ := forward_spec h hc N s' fr' it' (hN s') h2 h3
    exact ⟨it2, pre fr2, ahead F r s2 fr2, g1, g4, s2, fr2, g2, g3, rfl, rfl⟩

theorem next_spec (h : Ranked F r) {s0 : Nat} (hc : CoAcc F s0) (N : Nat) (hN : ∀ s, r s < N)
    {q : List Nat} {l : List (List Nat)} {it : It W} (hcur : Cur F r s0 q l it) :
    (l = [] ∧ next F N it = some { pop := true }) ∨
      ∃ it' q' l', next F N it = some it' ∧ l = q' :: l' ∧ Cur F r s0 q' l' it' := by
  obtain ⟨s, fr, h1, h2, h3, h4⟩ := hcur
  rw [h4]
  exact step_spec h hc N hN s fr it h2 h1.states h1.offsets h1.ils h1.ols _ h1.weights h1.pop

theorem Cur.out {s0 : Nat} {q : List Nat} {l : List (List Nat)} {it : It W} (h : Cur F r s0 q l it) :
    it.out = readout F s0 q ∧ it.done = false := by
  obtain ⟨s, fr, h1, h2, h3, h4⟩ := h
  exact ⟨h3 ▸ h1.out h2, by simp [It.done, h1.states]⟩

theorem init_spec (h : Ranked F r) {s0 : Nat} (hs : F.start = some s0) (hc : CoAcc F s0) (N : Nat)
    (hN : ∀ s, r s < N) :
    ∃ it q l, init F N = some it ∧ paths F r s0 = q :: l ∧ Cur F r s0 q l it := by
  rw [init, reset, hs]
  simp only
  by_cases hf : F.final s0 = 0
  · rw [if_pos hf]
    have hp : paths F r s0 = ahead F r s0 [] := by
      rw [paths_eq h, if_pos hf, ahead]; simp [rest, pre]
    rcases step_spec h hc N hN s0 [] ⟨[s0], [], [], [F.final s0], [-1], false⟩ rfl rfl rfl rfl rfl _ rfl rfl with ⟨h1, h2⟩ | ⟨it, q, l, h1, h2, h3⟩
    · exact absurd (hp.trans h1) (paths_ne h hc .refl)
    · exact ⟨it, q, l, h1, hp.trans h2, h3⟩
  · rw [if_neg hf]
    refine ⟨{ pop := false, states := [s0], weights := [F.final s0], offsets := [-1] }, [],
      ahead F r s0 [], ?_, ?_, s0, [], ⟨hf, rfl, rfl, rfl, rfl, rfl, rfl⟩, rfl, rfl, rfl⟩
    · simp [next, It.done]
    · rw [paths_eq h, if_neg hf, ahead]; simp [rest, pre]

theorem collect_spec (h : Ranked F r) {s0 : Nat} (hc : CoAcc F s0) (N : Nat) (hN : ∀ s, r s < N) :
    ∀ l q (it : It W) n, l.length + 2 ≤ n → Cur F r s0 q l it →
      collect F N n it = some ((q :: l).map (readout F s0), { pop := true }) := by
  intro l
  induction l with
  | nil =>
    intro q it n hn hcur
    obtain ⟨m, rfl⟩ := Nat.exists_eq_add_of_le hn
    obtain ⟨h1, h2⟩ := hcur.out
    rcases next_spec h hc N hN hcur with ⟨_, h3⟩ | ⟨_, _, _, _, h3, _⟩
    · have e : ([] : List (List Nat)).length + 2 + m = m + 1 + 1 := by simp; omega
      rw [e, collect, h2]
      simp only [h3, Option.bind_eq_bind, Option.bind_some]
      rw [collect]
      simp [It.done, h1]
    · cases h3
  | cons p l ih =>
    intro q it n hn hcur
    obtain ⟨m, rfl⟩ := Nat.exists_eq_add_of_le hn
    obtain ⟨h1, h2⟩ := hcur.out
    rcases next_spec h hc N hN hcur with ⟨h3, _⟩ | ⟨it', q', l', h3, h4, h5⟩
    · cases h3
    · injection h4 with e1 e2
      subst e1 e2
      have e : (p :: l).length + 2 + m = (l.length + 2 + m) + 1 := by simp; omega
      rw [e, collect, h2]
      simp only [h3, Option.bind_eq_bind, Option.bind_some]
      rw [ih p it' _ (by omega) h5]
      simp [h1]

/-! ## Ranks of acyclic automata -/

/-- Start state and arcs stay inside the table. -/
def Valid (F : WFst W) : Prop :=
  (∀ s, F.start = some s → s < F.table.length) ∧ ∀ s, ∀ a ∈ F.arcs s, a.next < F.table.length

/-- No path returns to its first state (`kAcyclic`). -/
def Acyclic (F : WFst W) : Prop := ∀ s, ¬ Relation.TransGen (Edge F) s s

open Classical in
theorem ranked_of_acyclic (hv : Valid F) (ha : Acyclic F) :
    ∃ r, Ranked F r ∧ ∀ s, r s < F.table.length + 1 := by
  refine ⟨fun s => ((Finset.range F.table.length).filter fun t => Relation.TransGen (Edge F) s t).card,
    ?_, ?_⟩
  · intro s a hs
    refine Finset.card_lt_card ⟨fun t ht => ?_, fun hsub => ?_⟩
    · simp only [Finset.mem_filter] at ht ⊢
      exact ⟨ht.1, .head ⟨a, hs, rfl⟩ ht.2⟩
    · have : a.next ∈ (Finset.range F.table.length).filter fun t => Relation.TransGen (Edge F) a.next t :=
        hsub (by simp only [Finset.mem_filter, Finset.mem_range]; exact ⟨hv.2 s a hs, .single ⟨a, hs, rfl⟩⟩)
      simp only [Finset.mem_filter] at this
      exact ha _ this.2
  · intro s
    refine Nat.lt_succ_of_le ?_
    refine (Finset.card_filter_le _ _).trans ?_
    simp

end Nisaba.Paths
