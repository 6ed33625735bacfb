import Verif.Lemmas.LmPairs
import Verif.Props.LmBackoff
import Verif.Model.NtFst
/-!
# C128: the transliterations of a word are those of the pair strings that spell it
-/
namespace Nisaba.Props
open Nisaba.LmPairs Nisaba.LmBackoff
open Nisaba.ErrorRate (decimal)

/-- The input side of a pair `n;m`. -/
def pairInSide (invert : Bool) (t : Int × Nat × Nat) : Nat := if invert then t.2.2 else t.2.1

/-- The output side of a pair `n;m`. -/
def pairOutSide (invert : Bool) (t : Int × Nat × Nat) : Nat := if invert then t.2.1 else t.2.2

/-- **C128.**  For a table of symbols `n;m`, a word has the output `y` at cost `c` exactly if there is a
string of pairs that the model accepts at cost `c`, whose input sides without 0 spell the word and whose
output sides without 0 spell `y`.  Other symbols are ignored. -/
theorem C128_pairs {K : Type} (syms : Syms) (h : PairTable syms) (invert : Bool) :
    ∃ fsts, initPairs syms invert = some fsts ∧
      ∀ (lm : List Int → K → Prop) (word : Str), (∀ x ∈ word, x ≠ 0) → ∀ (y : List Int) (c : K),
        Outputs fsts lm word y c ↔
          ∃ ts : List (Int × Nat × Nat), (∀ t ∈ ts, 0 < t.1 ∧ (t.1, decimal t.2.1 ++ 59 :: decimal t.2.2) ∈ syms) ∧
            (ts.map (pairInSide invert)).filter (· ≠ 0) = word ∧
            y = ((ts.map (pairOutSide invert)).filter (· ≠ 0)).map Int.ofNat ∧ lm (ts.map (·.1)) c := by
  obtain ⟨u, hu, su⟩ := pairArcs_spec invert h
  obtain ⟨p, hp, sp⟩ := pairArcs_spec (!invert) h
  refine ⟨(u, p.map Prod.swap), by unfold initPairs buildPairs; rw [hu, hp]; rfl, fun lm word hw y c => ?_⟩
  have hword : spell word = word := List.filter_eq_self.2 (by simpa using hw)
  have tu := @oneState_to syms u (fun n m => if invert then m else n) su
  have tp := @oneState_to syms p (fun n m => if !invert then m else n) sp
  have hinj : ∀ {a b : List Nat}, a.map Int.ofNat = b.map Int.ofNat → a = b := fun {a b} e =>
    List.map_injective_iff.2 (fun _ _ h => Int.ofNat.inj h) e
  unfold Outputs
  simp only [oneState_swap, tu, tp, wordLabels_eq, hword]
  constructor
  · rintro ⟨ps, ⟨ts, a1, rfl, a3⟩, hlm, ts', b1, b2, rfl⟩
    have e : ts = ts' := by
      clear a3 hlm
      induction ts generalizing ts' with
      | nil => cases ts' with
        | nil => rfl
        | cons _ _ => simp at b2
      | cons t ts ih =>
        cases ts' with
        | nil => simp at b2
        | cons t' ts' =>
          simp only [List.map_cons, List.cons.injEq] at b2
          have h1 := a1 t (by simp)
          have h2 := b1 t' (by simp)
          rw [← b2.1] at h2
          obtain ⟨e1, e2⟩ := h1.unique h.1 h2
          rw [ih (fun s hs => a1 s (by simp [hs])) ts' (fun s hs => b1 s (by simp [hs])) b2.2]
          obtain ⟨l, n, m⟩ := t
          obtain ⟨l', n', m'⟩ := t'
          simp only at e1 e2 b2
          rw [e1, e2, b2.1]
    subst e
    refine ⟨ts, a1, (hinj a3).symm, ?_, hlm⟩
    congr 2
    refine List.map_congr_left fun t _ => ?_
    cases invert <;> rfl
  · rintro ⟨ts, a1, a2, rfl, hlm⟩
    refine ⟨ts.map (·.1), ⟨ts, a1, rfl, by rw [← a2]; rfl⟩, hlm, ts, a1, rfl, ?_⟩
    unfold spell
    congr 2
    refine List.map_congr_left fun t _ => ?_
    cases invert <;> rfl

/-- C128 with the backoff model of C125: the costs are those of the backoff model for the pair string. -/
theorem C128_costs {K : Type} [AddCommMonoid K] (syms : Syms) (h : PairTable syms) (invert : Bool) (m : Lm K)
    (hm : IsBackoff m) (hs : m.start < m.states.length)
    (hback : ∀ q, ∀ a ∈ m.arcs q, 0 < a.label → a.next = m.start → (m.state m.start).final ≠ none) :
    ∃ fsts N, initPairs syms invert = some fsts ∧ ∀ fuel ≥ N, ∃ m', makePhi fuel m = some m' ∧
      ∀ word : Str, word ≠ [] → (∀ x ∈ word, x ≠ 0) → ∀ (y : List Int) (c : K),
        Outputs fsts (phiLm fuel m') word y c ↔
          ∃ ts : List (Int × Nat × Nat), (∀ t ∈ ts, 0 < t.1 ∧ (t.1, decimal t.2.1 ++ 59 :: decimal t.2.2) ∈ syms) ∧
            (ts.map (pairInSide invert)).filter (· ≠ 0) = word ∧
            y = ((ts.map (pairOutSide invert)).filter (· ≠ 0)).map Int.ofNat ∧
            BoScore m m.start (ts.map (·.1)) c := by
  obtain ⟨fsts, h1, h2⟩ := C128_pairs (K := K) syms h invert
  obtain ⟨N, h3⟩ := C125_score m hm hs hback
  refine ⟨fsts, N, h1, fun fuel hf => ?_⟩
  obtain ⟨m', h4, h5⟩ := h3 fuel hf
  refine ⟨m', h4, fun word hne hw y c => ?_⟩
  rw [h2 _ word hw]
  refine exists_congr fun ts => and_congr_right fun a1 => and_congr_right fun a2 => and_congr_right fun _ => ?_
  have hts : ts.map (·.1) ≠ [] := by
    intro e
    rw [List.map_eq_nil_iff] at e
    subst e
    exact hne a2.symm
  obtain ⟨costs, e, hc⟩ := h5 (ts.map (·.1)) hts (by
    intro w hw
    obtain ⟨t, ht, rfl⟩ := List.mem_map.1 hw
    exact (a1 t ht).1)
  unfold phiLm
  rw [e]
  simp [hc]

/-- C128: `invert_pairlm` gives exactly the converse: `y` is an output of the word if the word is an
output of `y` without it, at the same cost. -/
theorem C128_invert {K : Type} (syms : Syms) (h : PairTable syms) :
    ∃ f g, initPairs syms false = some f ∧ initPairs syms true = some g ∧
      ∀ (lm : List Int → K → Prop) (x y : Str), (∀ a ∈ x, a ≠ 0) → (∀ a ∈ y, a ≠ 0) → ∀ c : K,
        Outputs f lm x (y.map Int.ofNat) c ↔ Outputs g lm y (x.map Int.ofNat) c := by
  obtain ⟨f, h1, h2⟩ := C128_pairs (K := K) syms h false
  obtain ⟨g, h3, h4⟩ := C128_pairs (K := K) syms h true
  refine ⟨f, g, h1, h3, fun lm x y hx hy c => ?_⟩
  rw [h2 lm x hx, h4 lm y hy]
  have hinj : ∀ {a b : List Nat}, a.map Int.ofNat = b.map Int.ofNat ↔ a = b := fun {a b} =>
    ⟨fun e => List.map_injective_iff.2 (fun _ _ h => Int.ofNat.inj h) e, fun e => by rw [e]⟩
  refine exists_congr fun ts => and_congr_right fun _ => ?_
  rw [hinj, hinj]
  have e1 : ts.map (pairInSide false) = ts.map (pairOutSide true) := rfl
  have e2 : ts.map (pairInSide true) = ts.map (pairOutSide false) := rfl
  rw [e1, e2]
  constructor
  · rintro ⟨rfl, rfl, h⟩
    exact ⟨rfl, rfl, h⟩
  · rintro ⟨rfl, rfl, h⟩
    exact ⟨rfl, rfl, h⟩

/-- C128: the covered characters are the positive input sides of pairs, and a word with any other
character has no output. -/
theorem C128_covered {K : Type} (syms : Syms) (h : PairTable syms) (invert : Bool) :
    ∃ fsts, initPairs syms invert = some fsts ∧
      (∀ x : Nat, (x : Int) ∈ coveredChars fsts.1 ↔ 0 < x ∧ ∃ t : Int × Nat × Nat,
        0 < t.1 ∧ (t.1, decimal t.2.1 ++ 59 :: decimal t.2.2) ∈ syms ∧ pairInSide invert t = x) ∧
      ∀ (lm : List Int → K → Prop) (word : Str), (∀ x ∈ word, x ≠ 0) → ∀ (y : List Int) (c : K),
        Outputs fsts lm word y c → ∀ x ∈ word, (x : Int) ∈ coveredChars fsts.1 := by
  obtain ⟨fsts, h1, h2⟩ := C128_pairs (K := K) syms h invert
  obtain ⟨u, hu, su⟩ := pairArcs_spec invert h
  have hf : fsts.1 = u := by
    unfold initPairs buildPairs at h1
    rw [hu] at h1
    simp only [Option.map_some, Bool.false_eq_true, if_false] at h1
    split at h1
    · rename_i a b
      simp only [Option.some.injEq] at a
      rw [← Option.some.inj h1, a]
    · simp at h1
  have hc : ∀ x : Nat, (x : Int) ∈ coveredChars fsts.1 ↔ 0 < x ∧ ∃ t : Int × Nat × Nat,
        0 < t.1 ∧ (t.1, decimal t.2.1 ++ 59 :: decimal t.2.2) ∈ syms ∧ pairInSide invert t = x := by
    intro x
    rw [hf, covered_spec]
    simp only [su, Int.natCast_pos]
    refine and_congr_right fun _ => ?_
    constructor
    · rintro ⟨l, n, m, hp, e⟩
      exact ⟨(l, n, m), hp.1, hp.2, (Int.ofNat.inj e).symm⟩
    · rintro ⟨⟨l, n, m⟩, hp1, hp2, e⟩
      exact ⟨l, n, m, ⟨hp1, hp2⟩, by rw [← e]; rfl⟩
  refine ⟨fsts, h1, hc, fun lm word hw y c ho x hx => ?_⟩
  obtain ⟨ts, a1, a2, -, -⟩ := (h2 lm word hw y c).1 ho
  rw [hc]
  refine ⟨Nat.pos_of_ne_zero (hw x hx), ?_⟩
  rw [← a2] at hx
  obtain ⟨t, ht, e⟩ := List.mem_map.1 (List.mem_filter.1 hx).1
  exact ⟨t, (a1 t ht).1, (a1 t ht).2, e⟩

/-- C128: a symbol of two fields of which the first or the second is no number ends the program. -/
theorem C128_refused (syms : Syms) (invert : Bool) (l : Int) (hl : 0 < l) (a b : Str) (ha : 59 ∉ a) (hb : 59 ∉ b)
    (ha' : a ≠ []) (hb' : b ≠ []) (hbad : simpleAtoi a = none ∨ simpleAtoi b = none)
    (hm : (l, a ++ 59 :: b) ∈ syms) : initPairs syms invert = none := by
  have key : ∀ (k : Nat) (s : Str), s = (if k = 1 then b else a) → simpleAtoi s = none → pairArcs k syms = none := by
    intro k s hs hn
    induction syms with
    | nil => simp at hm
    | cons p rest ih =>
      obtain ⟨l', s'⟩ := p
      rcases List.mem_cons.1 hm with e | hm'
      · simp only [Prod.mk.injEq] at e
        obtain ⟨rfl, rfl⟩ := e
        unfold pairArcs
        rw [if_pos hl, pairFields_pair ha hb ha' hb']
        simp only [← hs, hn]
      · unfold pairArcs
        rw [ih hm']
        split
        · split
          · cases simpleAtoi (if k = 1 then _ else _) <;> rfl
          · rfl
        · rfl
  have : pairArcs 0 syms = none ∨ pairArcs 1 syms = none := by
    rcases hbad with h | h
    · exact .inl (key 0 a rfl h)
    · exact .inr (key 1 b rfl h)
  unfold initPairs buildPairs
  cases invert <;> rcases this with h | h <;> simp [h]

/-! ## Non-vacuity -/

/-- `a` becomes nothing, 97 becomes 2309, nothing becomes 2306, and a symbol that is no pair. -/
def samplePairs : Syms :=
  [(0, a!"<epsilon>"), (1, a!"97;0"), (2, a!"97;2309"), (3, a!"0;2306"), (4, a!"<unk>")]

example : PairTable samplePairs := by
  refine ⟨by decide, fun p hp hl => ?_⟩
  simp only [samplePairs, List.mem_cons, List.not_mem_nil, or_false] at hp
  rcases hp with rfl | rfl | rfl | rfl | rfl
  · simp at hl
  · exact .inr ⟨97, 0, by decide, by decide, by decide⟩
  · exact .inr ⟨97, 2309, by decide, by decide, by decide⟩
  · exact .inr ⟨0, 2306, by decide, by decide, by decide⟩
  · exact .inl (by decide)

example : initPairs samplePairs false = some ([(97, 1), (97, 2), (0, 3)], [(1, 0), (2, 2309), (3, 2306)]) := by
  decide +kernel
example : initPairs samplePairs true = some ([(0, 1), (2309, 2), (2306, 3)], [(1, 97), (2, 97), (3, 0)]) := by
  decide +kernel
example : (initPairs samplePairs true).map (fun f => coveredChars f.1) = some [2309, 2306] := by decide +kernel
example : initPairs [(1, a!"97;x")] false = none := by decide +kernel

end Nisaba.Props
