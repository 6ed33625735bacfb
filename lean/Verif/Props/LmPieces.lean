import Verif.Lemmas.LmPieces
import Mathlib.Algebra.Group.Int.Defs
import Mathlib.Data.List.Forall2
/-!
# C126: what the language model is given for a candidate
-/
namespace Nisaba.Props
open Nisaba.LmPieces

variable {K : Type} [AddCommMonoid K]

/-- A word cut greedily into the longest pieces: `pre` is written before the piece that comes next,
`inner` before all others.  A letter where no piece begins is unknown. -/
inductive Greedy (piece : Int → Str → Prop) (oov : Int) (inner : Str) : Str → Str → List Int → Nat → Prop
  | nil {pre} : Greedy piece oov inner pre [] [] 0
  | known {pre t r l ls n} : t ≠ [] → piece l (pre ++ t) →
      (∀ t' l', t' <+: t ++ r → t' ≠ [] → piece l' (pre ++ t') → t'.length ≤ t.length) →
      Greedy piece oov inner inner r ls n → Greedy piece oov inner pre (t ++ r) (l :: ls) n
  | unknown {pre c r ls n} : (∀ t l, t <+: c :: r → t ≠ [] → ¬ piece l (pre ++ t)) →
      Greedy piece oov inner inner r ls n → Greedy piece oov inner pre (c :: r) (oov :: ls) (n + 1)

theorem Greedy.unique {syms : Syms} (hd : (syms.map (·.2)).Nodup) {oov : Int} {inner : Str}
    {pre w : Str} {ls ls' : List Int} {n n' : Nat}
    (h : Greedy (IsPiece syms oov) oov inner pre w ls n)
    (h' : Greedy (IsPiece syms oov) oov inner pre w ls' n') : ls = ls' ∧ n = n' := by
  induction h generalizing ls' n' with
  | nil =>
    generalize hw : ([] : Str) = w at h'
    cases h' with
    | nil => exact ⟨rfl, rfl⟩
    | known ht _ _ _ => simp at hw; exact absurd hw.1 ht
    | unknown _ _ => simp at hw
  | @known pre t r l ls n ht hp hmax _ ih =>
    generalize hw : t ++ r = w at h'
    cases h' with
    | nil => simp at hw; exact absurd hw.1 ht
    | @known _ t' r' l' ls' n' ht' hp' hmax' h' =>
      have h1 : t'.length ≤ t.length := hmax t' l' (hw ▸ List.prefix_append _ _) ht' hp'
      have h2 : t.length ≤ t'.length := hmax' t l (hw ▸ List.prefix_append _ _) ht hp
      obtain ⟨rfl, rfl⟩ := List.append_inj hw (by omega)
      obtain ⟨rfl, rfl⟩ := ih h'
      have := find_spec hd hp.1
      rw [find_spec hd hp'.1] at this
      exact ⟨by rw [this], rfl⟩
    | @unknown _ c r' ls' n' hno _ => exact absurd hp (hno t l (hw ▸ List.prefix_append _ _) ht)
  | @unknown pre c r ls n hno _ ih =>
    generalize hw : c :: r = w at h'
    cases h' with
    | nil => simp at hw
    | @known _ t' r' l' ls' n' ht' hp' hmax' h' =>
      exact absurd hp' (hno t' l' (hw ▸ List.prefix_append _ _) ht')
    | unknown _ h' =>
      obtain ⟨rfl, rfl⟩ := List.cons.inj hw
      obtain ⟨rfl, rfl⟩ := ih h'
      exact ⟨rfl, rfl⟩

theorem parseLoop_spec {syms : Syms} (hd : (syms.map (·.2)).Nodup) {oov : Int} {inner : Str} {T : Trie}
    (hT : initTrie syms oov inner = some T) (hoov : 0 < oov) (oovCost : K) :
    ∀ (fuel : Nat) (w : Str), w.length ≤ fuel → ∀ (st : TrieState) (pfx : Str) (cost : K) (acc : List Int),
      (∀ s, s ∈ st ↔ ∃ l, IsPiece syms oov l (pfx ++ s)) →
      (if pfx.isEmpty then T.pre else pfx) = inner →
      ∃ ls n, parseLoop T oovCost fuel st pfx w cost acc = some (cost + n • oovCost, acc ++ ls) ∧
        Greedy (IsPiece syms oov) oov inner pfx w ls n := by
  obtain ⟨hsy, hov, hpr, hne, hroot, hin⟩ := initTrie_spec hT
  have hinner : (if inner.isEmpty then T.pre else inner) = inner := by
    rw [hpr]; simp
  intro fuel
  induction fuel with
  | zero =>
    intro w hw st pfx cost acc hst _
    have : w = [] := List.length_eq_zero_iff.1 (by omega)
    subst this
    exact ⟨[], 0, by simp [parseLoop], .nil⟩
  | succ fuel ih =>
    intro w hw st pfx cost acc hst hp
    cases w with
    | nil => exact ⟨[], 0, by simp [parseLoop], .nil⟩
    | cons c cs =>
      simp only [List.length_cons] at hw
      unfold parseLoop
      simp only [getMatched_eq, hp, hov, hsy]
      obtain ⟨h1, h2, h3⟩ := best_spec (c :: cs) st
      by_cases hb : best st (c :: cs) = []
      · simp only [hb, List.isEmpty_nil, if_true, gt_iff_lt, hoov]
        obtain ⟨ls, n, he, hg⟩ := ih cs (by omega) T.inner inner (cost + oovCost) (acc ++ [oov])
          hin hinner
        refine ⟨oov :: ls, n + 1, ?_, .unknown ?_ hg⟩
        · rw [he, succ_nsmul]
          simp only [List.append_assoc, List.singleton_append, Option.some.injEq, Prod.mk.injEq, and_true]
          rw [add_assoc, add_comm oovCost]
        · intro t l ht hne' hpc
          have := h3 t ht hne' ((hst t).2 ⟨l, hpc⟩)
          rw [hb] at this
          exact hne' (List.length_eq_zero_iff.1 (by simpa using this))
      · have hemp : (best st (c :: cs)).isEmpty = false := by simpa using hb
        obtain ⟨l, hl⟩ := (hst _).1 (h2 hb)
        have hfind := find_spec hd hl.1
        simp only [hemp, Bool.false_eq_true, if_false, hfind, gt_iff_lt, hl.2.1, if_true]
        obtain ⟨r, hr⟩ := h1
        have hdrop : (c :: cs).drop (best st (c :: cs)).length = r := by
          conv => lhs; rw [← hr]
          rw [List.drop_append_of_le_length (by rw [hr]; exact Nat.le_refl _)]
          rw [hr]
          simp
        have hlen : r.length ≤ fuel := by
          have e := congrArg List.length hr
          have hpos : 0 < (best st (c :: cs)).length := List.length_pos_iff.2 hb
          simp only [List.length_append, List.length_cons] at e
          omega
        rw [hdrop]
        obtain ⟨ls, n, he, hg⟩ := ih r hlen T.inner inner cost (acc ++ [l]) hin hinner
        refine ⟨l :: ls, n, by rw [he]; simp, ?_⟩
        have hk := Greedy.known (piece := IsPiece syms oov) (oov := oov) (inner := inner) (pre := pfx)
          (r := r) hb hl (by
          intro t' l' ht hne' hpc
          rw [hr] at ht
          exact h3 t' ht hne' ((hst t').2 ⟨l', hpc⟩)) hg
        rw [hr] at hk
        exact hk

/-- **C126.**  With a prefix for pieces inside words and without a word piece model, a candidate is cut
greedily into the longest symbols of the language model.  Where none begins, one letter becomes the
symbol for unknown words and costs `oov_cost`.  The symbol is always found. -/
theorem C126_greedy (syms : Syms) (hd : (syms.map (·.2)).Nodup) (oov : Int) (hoov : 0 < oov) (inner : Str)
    (T : Trie) (hT : initTrie syms oov inner = some T) (oovCost : K) (w : Str) :
    ∃ ls n, parseCand T oovCost w = some (n • oovCost, ls) ∧
      ∀ ls' n', Greedy (IsPiece syms oov) oov inner [] w ls' n' ↔ ls' = ls ∧ n' = n := by
  obtain ⟨hsy, hov, hpr, hne, hroot, hin⟩ := initTrie_spec hT
  obtain ⟨ls, n, he, hg⟩ := parseLoop_spec hd hT hoov oovCost w.length w (Nat.le_refl _) T.root [] 0 []
    hroot (by simp [hpr])
  refine ⟨ls, n, by simpa [parseCand] using he, fun ls' n' => ⟨fun h => h.unique hd hg, ?_⟩⟩
  rintro ⟨rfl, rfl⟩
  exact hg

/-- When the decoder starts: the prefix must not be empty, and a symbol must begin with it. -/
theorem C126_init (syms : Syms) (oov : Int) (inner : Str) :
    initTrie syms oov inner ≠ none ↔ inner ≠ [] ∧ ∃ l s, IsPiece syms oov l (inner ++ s) := by
  have hwalk : ∀ (pre : Str) (st : TrieState), st ≠ [] →
      (walk st pre ≠ none ↔ ∃ s, pre ++ s ∈ st) := by
    intro pre
    induction pre with
    | nil =>
      intro st hst
      obtain ⟨s, hs⟩ := List.exists_mem_of_ne_nil _ hst
      simp only [walk, ne_eq, reduceCtorEq, not_false_eq_true, List.nil_append, true_iff]
      exact ⟨s, hs⟩
    | cons c cs ih =>
      intro st hst
      unfold walk
      cases hn : next st c with
      | none =>
        simp only [ne_eq, not_true_eq_false, false_iff, not_exists]
        intro s
        exact next_none hn _
      | some st' =>
        have hne : st' ≠ [] := by
          intro e
          unfold next at hn
          simp only at hn
          split at hn
          · simp at hn
          · rename_i h
            simp only [Option.some.injEq] at hn
            rw [hn, e] at h
            simp at h
        simp only
        rw [ih st' hne]
        constructor
        · rintro ⟨s, hs⟩; exact ⟨s, (mem_next hn _).1 hs⟩
        · rintro ⟨s, hs⟩; exact ⟨s, (mem_next hn _).2 hs⟩
  unfold initTrie
  by_cases hp : inner = []
  · simp [hp]
  · have hemp : inner.isEmpty = false := by simpa using hp
    simp only [hemp, Bool.false_eq_true, if_false]
    generalize hroot : (syms.filter fun p => 0 < p.1 && p.1 != oov).map (·.2) = root
    have hmem : ∀ s, s ∈ root ↔ ∃ l, IsPiece syms oov l s := by
      intro s
      rw [← hroot]
      simp only [List.mem_map, List.mem_filter, Bool.and_eq_true, decide_eq_true_eq, bne_iff_ne, Prod.exists]
      constructor
      · rintro ⟨l, s', ⟨hm, h1, h2⟩, rfl⟩; exact ⟨l, hm, h1, h2⟩
      · rintro ⟨l, hm, h1, h2⟩; exact ⟨l, s, ⟨hm, h1, h2⟩, rfl⟩
    have hw : walk root inner ≠ none ↔ ∃ s, inner ++ s ∈ root := by
      by_cases hr : root = []
      · subst hr
        cases inner with
        | nil => exact absurd rfl hp
        | cons c cs => simp [walk, next]
      · exact hwalk inner root hr
    constructor
    · intro h
      refine ⟨hp, ?_⟩
      have : walk root inner ≠ none := by
        intro e; rw [e] at h; exact h rfl
      obtain ⟨s, hs⟩ := hw.1 this
      obtain ⟨l, hl⟩ := (hmem _).1 hs
      exact ⟨l, s, hl⟩
    · rintro ⟨-, l, s, hl⟩
      have := hw.2 ⟨s, (hmem _).2 ⟨l, hl⟩⟩
      cases e : walk root inner with
      | none => exact absurd e this
      | some st => simp

/-- Without a symbol for unknown words, a letter where no piece begins ends the program. -/
theorem C126_no_oov (syms : Syms) (oov : Int) (hoov : oov ≤ 0) (inner : Str)
    (T : Trie) (hT : initTrie syms oov inner = some T) (oovCost : K) (c : Nat) (w : Str)
    (hno : ∀ t l, t <+: c :: w → t ≠ [] → ¬ IsPiece syms oov l t) :
    parseCand T oovCost (c :: w) = none := by
  obtain ⟨hsy, hov, hpr, hne, hroot, hin⟩ := initTrie_spec hT
  have hb : best T.root (c :: w) = [] := by
    obtain ⟨h1, h2, -⟩ := best_spec (c :: w) T.root
    by_contra hb
    obtain ⟨l, hl⟩ := (hroot _).1 (h2 hb)
    exact hno _ l h1 hb hl
  unfold parseCand
  simp only [List.length_cons]
  unfold parseLoop
  simp only [getMatched_eq, hb, List.isEmpty_nil, if_true, hov]
  rw [if_neg (by omega)]

/-- With a word piece model, every piece of a candidate becomes its symbol or the one for unknown
words.  The cost is `oov_cost` for each of the latter. -/
theorem C126_segments (syms : Syms) (hd : (syms.map (·.2)).Nodup) (hl : ∀ p ∈ syms, 0 < p.1) (oov : Int)
    (oovCost : K) (pieces : List Str) :
    ∃ ls, segmentCand syms oov oovCost pieces =
        some ((pieces.filter fun p => decide (∀ q ∈ syms, q.2 ≠ p)).length • oovCost, ls) ∧
      List.Forall₂ (fun p l => (l, p) ∈ syms ∨ ((∀ q ∈ syms, q.2 ≠ p) ∧ l = oov)) pieces ls := by
  induction pieces with
  | nil => exact ⟨[], by simp [segmentCand], .nil⟩
  | cons p ps ih =>
    obtain ⟨ls, he, hf⟩ := ih
    by_cases hm : ∀ q ∈ syms, q.2 ≠ p
    · have hfind : syms.find p = -1 := find_none fun l h => hm _ h rfl
      refine ⟨oov :: ls, ?_, .cons (.inr ⟨hm, rfl⟩) hf⟩
      unfold segmentCand
      have hmt : decide (∀ q ∈ syms, q.2 ≠ p) = true := by simpa using hm
      rw [List.filter_cons_of_pos (by simpa using hm)]
      simp only [hfind, he]
      rw [if_pos (by decide)]
      simp only [Option.map_some, List.length_cons, succ_nsmul, Option.some.injEq, Prod.mk.injEq, and_true]
      rw [add_comm]
    · have : ∃ q ∈ syms, q.2 = p := by
        by_contra h
        exact hm fun q hq e => h ⟨q, hq, e⟩
      obtain ⟨⟨l, s⟩, hq, rfl⟩ := this
      have hfind := find_spec hd hq
      have hpos := hl _ hq
      simp only at hpos
      refine ⟨l :: ls, ?_, .cons (.inl hq) hf⟩
      unfold segmentCand
      rw [List.filter_cons_of_neg (by simpa using hm)]
      simp only [hfind, he]
      rw [if_neg (by omega), if_pos (by omega)]
      rfl

/-- Without word pieces, a candidate becomes its symbol, or the one for unknown words with `oov_cost`. -/
theorem C126_whole (syms : Syms) (hd : (syms.map (·.2)).Nodup) (hl : ∀ p ∈ syms, 0 ≤ p.1) (oov : Int)
    (oovCost : K) (w : Str) :
    (∀ l, (l, w) ∈ syms → wholeCand syms oov oovCost w = (0, [l])) ∧
    ((∀ q ∈ syms, q.2 ≠ w) → wholeCand syms oov oovCost w = (oovCost, [oov])) := by
  constructor
  · intro l h
    have := hl _ h
    simp only at this
    unfold wholeCand
    simp only [find_spec hd h]
    rw [if_neg (by omega)]
  · intro h
    unfold wholeCand
    simp only [find_none fun l hm => h _ hm rfl]
    rw [if_pos (by decide)]

/-- **C126.**  After any calls, the transducer `cands_to_lm_fst` relates exactly the sequences of known
candidates to the symbols of their words, one word after the other, at the cost of the unknown ones.
Each candidate is known once, however often it was found.  A candidate without symbols is not read. -/
theorem C126_transducer (labels : Str → Option (K × List Int)) (epsilon : Str) (calls : List Str)
    (C : Ctx K) (h : addCands labels calls (Ctx.new epsilon) = some C) :
    C.cands.head? = some epsilon ∧ C.cands.Nodup ∧
    (∀ w, w ∈ C.cands ↔ w = epsilon ∨ w ∈ calls) ∧
    ∀ is os c, Path C.fst 0 is os c ↔
      Reads (fun i c ls => i ≠ 0 ∧ ∃ w, C.cands[i]? = some w ∧ labels w = some (c, ls)) is os c := by
  obtain ⟨tab, hok, hm⟩ := addCands_ok calls (CtxOk.new labels epsilon) h
  refine ⟨hok.head, hok.nodup, fun w => by rw [hm]; simp [Ctx.new], fun is os c => ?_⟩
  obtain ⟨rem, hg⟩ := hok.good
  rw [hg.paths (fun x hx => ((hok.table x.1 x.2.1 x.2.2).1 hx).1)]
  have : (fun i c ls => (i, c, ls) ∈ tab) =
      fun (i : Nat) (c : K) (ls : List Int) => i ≠ 0 ∧ ∃ w, C.cands[i]? = some w ∧ labels w = some (c, ls) := by
    funext i c ls
    exact propext (hok.table i c ls)
  rw [this]

/-- The calls fail only for a candidate whose symbols are not found. -/
theorem C126_calls (labels : Str → Option (K × List Int)) (epsilon : Str) (calls : List Str)
    (h : ∀ w ∈ calls, labels w ≠ none) : ∃ C, addCands labels calls (Ctx.new epsilon) = some C := by
  generalize (Ctx.new epsilon : Ctx K) = C
  induction calls generalizing C with
  | nil => exact ⟨C, rfl⟩
  | cons w ws ih =>
    unfold addCands addCand
    split
    · rename_i e
      split at e
      · simp at e
      · cases hl : labels w with
        | none => exact absurd hl (h w (by simp))
        | some p => rw [hl] at e; simp at e
    · exact ih (fun v hv => h v (by simp [hv])) _

/-- An empty candidate has no pieces, so the language model never accepts it. -/
theorem C126_empty_violated (T : Trie) (oovCost : K) : parseCand T oovCost [] = some (0, []) ∧
    ∀ (epsilon : Str) (calls : List Str) (C : Ctx K),
      addCands (parseCand T oovCost) calls (Ctx.new epsilon) = some C → ∀ i, C.cands[i]? = some [] →
      ∀ is os c, Path C.fst 0 is os c → i ∉ is := by
  refine ⟨by simp [parseCand, parseLoop], fun epsilon calls C h i hi is os c hp => ?_⟩
  have := ((C126_transducer _ epsilon calls C h).2.2.2 is os c).1 hp
  clear hp h
  induction this with
  | nil => simp
  | @cons j c ls is os d ht hne _ ih =>
    rw [List.mem_cons, not_or]
    refine ⟨?_, ih⟩
    rintro rfl
    obtain ⟨-, w, hw, hl⟩ := ht
    rw [hi] at hw
    simp only [Option.some.injEq] at hw
    subst hw
    simp only [parseCand, parseLoop, Option.some.injEq, Prod.mk.injEq] at hl
    exact hne hl.2.symm

/-! ## Pieces of a small model -/
namespace PieceExample

/-- `<unk>`, `a`, `ab`, `##b`, `##bc`, `##c`, where `#` is 35. -/
def syms : Syms := [(0, [60]), (1, [61]), (2, [97]), (3, [97, 98]), (4, [35, 35, 98]), (5, [35, 35, 98, 99]),
  (6, [35, 35, 99])]

example : (syms.map (·.2)).Nodup ∧ initTrie syms 1 [35, 35] ≠ none := by decide +kernel

/-- `abcxb` is `ab`, `##c`, unknown, `##b`. -/
example : (initTrie syms 1 [35, 35]).bind (fun T => parseCand T (10 : Int) [97, 98, 99, 120, 98]) =
    some (10, [3, 6, 1, 4]) := by decide +kernel

/-- A word that begins with the prefix is cut like the inside of a word: `##b` is not known as a word. -/
example : (initTrie syms 1 [35, 35]).bind (fun T => parseCand T (10 : Int) [35, 35, 98]) =
    some (0, [4]) := by decide +kernel

/-- Two candidates, one of them twice: read with their pieces. -/
example : ((initTrie syms 1 [35, 35]).bind fun T =>
    addCands (parseCand T (10 : Int)) [[97, 98, 99], [97], [97, 98, 99]] (Ctx.new [60])).map
      (fun C => (C.cands, C.fst.n, C.fst.arcs.map fun a => (a.src, a.ilabel, a.olabel, a.cost, a.dst))) =
    some ([[60], [97, 98, 99], [97]], 2, [(0, 1, 3, 0, 1), (1, 0, 6, 0, 0), (0, 2, 2, 0, 0)]) := by
  rfl

end PieceExample

end Nisaba.Props
