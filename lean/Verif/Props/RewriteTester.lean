import Verif.Lemmas.RewriteTester
import Verif.Props.Grm2
import Mathlib.Data.List.Sort
/-!
# C120: what the rewrite tester prints
-/
namespace Nisaba.Props
open Grm2 RewriteTester

variable {K : Type} [AddMonoid K] [LinearOrder K]

/-- What OpenFst documents of `ShortestPath`: a path of least cost; of several distinct strings, each with
its least cost, as many as asked for and none left out that is cheaper than one taken. -/
structure SoundFinder (f : Finder K) : Prop where
  none : f.one [] = none
  one : ∀ l, l ≠ [] → ∃ p, f.one l = some p ∧ p ∈ l ∧ ∀ q ∈ l, p.2 ≤ q.2
  nodup : ∀ n l, ((f.many n l).map (·.1)).Nodup
  mem : ∀ n l, ∀ p ∈ f.many n l, p ∈ l ∧ ∀ c, (p.1, c) ∈ l → p.2 ≤ c
  length : ∀ n l, (f.many n l).length ≤ n
  rest : ∀ n l, ∀ p ∈ l, p.1 ∉ (f.many n l).map (·.1) →
    (f.many n l).length = n ∧ ∀ q ∈ f.many n l, q.2 ≤ p.2

/-- The best `n` outputs of `x`, in any order. -/
structure BestOutputs (fs : List (Str → Lat K)) (x : Str) (n : Nat) (outs : Lat K) : Prop where
  nodup : (outs.map (·.1)).Nodup
  cost : ∀ y c, (y, c) ∈ outs → Derives fs x y c ∧ ∀ d, Derives fs x y d → c ≤ d
  length : outs.length ≤ n
  rest : ∀ z d, Derives fs x z d → z ∉ outs.map (·.1) → outs.length = n ∧ ∀ y c, (y, c) ∈ outs → c ≤ d

/-- The labels a mode can print so that they can be read again. -/
def Printable : Mode → Str → Prop
  | .byte, y => ∀ l ∈ y, 0 < l ∧ l < 256
  | .utf8, y => ∀ l ∈ y, 0 < l ∧ Utf8.isScalar l = true
  | .symbol t, y => ∀ l ∈ y, 0 < l ∧ l ∈ t.map (·.2)

/-- A symbol table without repetitions and without tabs and blanks. -/
def GoodTable : Mode → Prop
  | .symbol t => (t.map (·.1)).Nodup ∧ (t.map (·.2)).Nodup ∧ ∀ e ∈ t, e.1 ≠ [] ∧ 9 ∉ e.1 ∧ 32 ∉ e.1
  | _ => True

/-- Good settings: no generated symbols, a good table, a separator of tabs and blanks. -/
structure GoodOptions (o : Options K) : Prop where
  generated : o.generated = none
  table : GoodTable o.output
  sep : o.separator ≠ []
  blanks : ∀ c ∈ o.separator, c = 9 ∨ c = 32

/-- Prefix of a line. -/
def promptOf (prepend : Bool) : Str := if prepend then ascii "Output string: " else []

omit [AddMonoid K] [LinearOrder K] in
/-- C120: what is printed for an output can be read again in the same mode. -/
theorem pathText_reread (o : Options K) (h : GoodOptions o) (y : Str) (hy : Printable o.output y) :
    ∃ t, pathText o [] y = some t ∧ compile o.output t = some y := by
  obtain ⟨hg, ht, hs, hb⟩ := h
  cases ho : o.output with
  | byte =>
    rw [ho] at hy
    exact ⟨y, by simpa using pathText_byte o ho hg [] y hy, rfl⟩
  | utf8 =>
    rw [ho] at hy
    refine ⟨_, pathText_utf8 o ho hg [] y hy, ?_⟩
    rw [compile, List.nil_append]
    exact Utf8.decodeAll_encode y fun c hc => (hy c hc).2
  | symbol t =>
    rw [ho] at hy ht
    obtain ⟨h1, h2, h3⟩ := ht
    have sym : ∀ l ∈ y, (symbolOf t l, l) ∈ t := by
      intro l hl
      obtain ⟨e, he, rfl⟩ := List.mem_map.1 (hy l hl).2
      rw [symbolOf_mem h2 (s := e.1) he]
      exact he
    refine ⟨_, pathText_symbol o t ho hg y fun l hl => ⟨(hy l hl).1, (h3 _ (sym l hl)).1⟩, ?_⟩
    rw [compile, tokens_joined o.separator hs hb]
    · rw [List.map_map]
      have := allSome_map (labelOf t ∘ symbolOf t) id y fun l hl => labelOf_mem h1 (sym l hl)
      simpa using this
    · intro w hw
      obtain ⟨l, hl, rfl⟩ := List.mem_map.1 hw
      exact h3 _ (sym l hl)

section
variable (f : Finder K) (hf : SoundFinder f) (o : Options K) (m : Map K) (ds : List Str)
  (fs : List (Str → Lat K)) (h : List.Forall₂ (Means m) ds fs) (hne : ds ≠ []) (prepend : Bool) (input x : Str)
  (hx : compile o.input input = some x)
include h hne hx

/-- Without details only the last lattice counts. -/
theorem processInput_plain (hd : o.details = false ∨ ds.length = 1) :
    processInput f o m ds prepend input =
      match fstToStrings f o (full fs [(x, 0)]) with
      | (outs, true) => .ok (outs.flatMap (outputLine o prepend))
      | (_, false) => .ok (failure input) := by
  have hd' : (o.details && decide (1 < ds.length)) = false := by
    rcases hd with hd | hd
    · simp [hd]
    · simp [hd]
  rw [processInput, hx]
  simp only
  rw [loop_plain f o m _ hd', thraxCascade_full h, if_neg hne]
  rfl

include hf

/-- C120: with `--noutput=1` the answer is one line with an output of least cost, and a failure exactly if the
rules have no output. -/
theorem C120_one (hn : o.noutput = 1) (hd : o.details = false ∨ ds.length = 1) (ho : GoodOptions o)
    (hp : ∀ y c, Derives fs x y c → Printable o.output y) :
    (∃ y t, Optimal fs x y ∧ compile o.output t = some y ∧
      processInput f o m ds prepend input = .ok (promptOf prepend ++ t ++ [10])) ∨
    (∀ y c, ¬ Derives fs x y c) ∧ processInput f o m ds prepend input =
      .ok (ascii "Rewrite failed for \"" ++ input ++ [34]) := by
  rw [processInput_plain f o m ds fs h hne prepend input x hx hd, fstToStrings, found, if_pos hn]
  by_cases hl : full fs [(x, 0)] = []
  · right
    rw [hl, hf.none]
    exact ⟨(full_eq_nil fs x).1 hl, rfl⟩
  · left
    obtain ⟨⟨y, c⟩, h1, h2, h3⟩ := hf.one _ hl
    have hy := (mem_full_one fs x y c).1 h2
    obtain ⟨t, ht, hc⟩ := pathText_reread o ho y (hp y c hy)
    refine ⟨y, t, ⟨c, hy, fun z d hz => h3 (z, d) ((mem_full_one fs x z d).2 hz)⟩, hc, ?_⟩
    rw [h1]
    simp only [Option.toList, printPaths, ht, List.nil_append, List.flatMap_cons, List.flatMap_nil,
      List.append_nil, outputLine, promptOf, newline]
    simp [hn]

/-- C120: otherwise one line for each of the best `--noutput` outputs, with its cost unless it is zero. -/
theorem C120_many (hn : o.noutput ≠ 1) (hpos : 0 < o.noutput) (hd : o.details = false ∨ ds.length = 1)
    (ho : GoodOptions o) (hp : ∀ y c, Derives fs x y c → Printable o.output y) :
    (∃ outs texts, outs ≠ [] ∧ BestOutputs fs x o.noutput.toNat outs ∧
      List.Forall₂ (fun p t => compile o.output t = some p.1) outs texts ∧
      processInput f o m ds prepend input = .ok ((List.zip texts outs).flatMap fun q =>
        promptOf prepend ++ q.1 ++
          (if q.2.2 = 0 then [] else ascii " <cost=" ++ o.costText q.2.2 ++ ascii ">") ++ [10])) ∨
    (∀ y c, ¬ Derives fs x y c) ∧ processInput f o m ds prepend input =
      .ok (ascii "Rewrite failed for \"" ++ input ++ [34]) := by
  rw [processInput_plain f o m ds fs h hne prepend input x hx hd, fstToStrings, found, if_neg hn,
    if_neg (by omega)]
  have hb : BestOutputs fs x o.noutput.toNat (f.many o.noutput.toNat (full fs [(x, 0)])) := by
    refine ⟨hf.nodup _ _, fun y c hm => ?_, hf.length _ _, fun z d hz hnm => ?_⟩
    · obtain ⟨h1, h2⟩ := hf.mem _ _ _ hm
      exact ⟨(mem_full_one fs x y c).1 h1, fun d hd => h2 d ((mem_full_one fs x y d).2 hd)⟩
    · obtain ⟨h1, h2⟩ := hf.rest _ _ (z, d) ((mem_full_one fs x z d).2 hz) hnm
      exact ⟨h1, fun y c hm => h2 (y, c) hm⟩
  generalize hm : f.many o.noutput.toNat (full fs [(x, 0)]) = outs at hb
  cases outs with
  | nil =>
    right
    refine ⟨fun y c hy => ?_, rfl⟩
    have := (hb.rest y c hy (by simp)).1
    simp at this
    omega
  | cons p ps =>
    left
    have key : ∀ q ∈ p :: ps, ∃ t, pathText o [] q.1 = some t ∧ compile o.output t = some q.1 := fun q hq =>
      pathText_reread o ho q.1 (hp q.1 q.2 (hb.cost q.1 q.2 hq).1)
    let g : Str → Str := fun y => (pathText o [] y).getD []
    have hg : ∀ q ∈ p :: ps, pathText o [] q.1 = some (g q.1) := fun q hq => by
      obtain ⟨t, ht, _⟩ := key q hq
      simp [g, ht]
    refine ⟨p :: ps, (p :: ps).map fun q => g q.1, by simp, hb, ?_, ?_⟩
    · rw [List.forall₂_map_right_iff, List.forall₂_same]
      intro q hq
      obtain ⟨t, ht, hc⟩ := key q hq
      simpa [g, ht] using hc
    · simp only
      rw [printPaths_ok o g _ _ hg]
      simp only [List.nil_append]
      congr 1
      generalize p :: ps = l
      induction l with
      | nil => rfl
      | cons q l ih =>
        simp only [List.map_cons, List.flatMap_cons, List.zip_cons_cons]
        rw [ih]
        congr 1
        simp only [outputLine, promptOf, newline, hn, ne_eq, not_false_eq_true, true_and]
        by_cases hc : q.2 = 0
        · simp [hc]
        · simp only [hc, not_false_eq_true, if_true, if_false]
          rfl

omit hf
/-- C120: an output with a label that is not in the table of the output is not replaced by another output: if
each one has such a label, the answer is a failure. -/
theorem C120_missing (hf : SoundFinder f) (t : Table) (ho : o.output = .symbol t) (hg : o.generated = none)
    (hd : o.details = false ∨ ds.length = 1)
    (hm : ∀ y c, Derives fs x y c → ∃ l ∈ y, l ≠ 0 ∧ l ∉ t.map (·.2)) :
    processInput f o m ds prepend input = .ok (ascii "Rewrite failed for \"" ++ input ++ [34]) := by
  rw [processInput_plain f o m ds fs h hne prepend input x hx hd]
  have key : ∀ l : Lat K, (∀ p ∈ l, ∃ c, Derives fs x p.1 c) → l ≠ [] → printPaths o l [] = ([], false) := by
    intro l hl hln
    cases l with
    | nil => exact absurd rfl hln
    | cons p l =>
      obtain ⟨y, c⟩ := p
      obtain ⟨d, hy⟩ := hl (y, c) (by simp)
      obtain ⟨k, h1, h2, h3⟩ := hm y d hy
      rw [printPaths, pathText_missing o t ho hg [] y k h1 h2 (symbolOf_none h3)]
  have hall : ∀ p ∈ found f o.noutput (full fs [(x, 0)]), ∃ c, Derives fs x p.1 c := by
    intro p hp
    rw [found] at hp
    have : p ∈ full fs [(x, 0)] := by
      split at hp
      · by_cases hl : full fs [(x, 0)] = []
        · rw [hl, hf.none] at hp; simp at hp
        · obtain ⟨q, h1, h2, -⟩ := hf.one _ hl
          rw [h1] at hp
          simp at hp
          exact hp ▸ h2
      · split at hp
        · simp at hp
        · exact (hf.mem _ _ _ hp).1
    exact ⟨p.2, (mem_full_one fs x p.1 p.2).1 this⟩
  rw [fstToStrings]
  cases e : found f o.noutput (full fs [(x, 0)]) with
  | nil => rfl
  | cons p ps =>
    rw [e] at hall
    simp only
    rw [key (p :: ps) hall (by simp)]
    rfl

end

/-- C120: the last byte of an answer tells what happened: a full stop for an input that cannot be read, a quotation
mark for a failure, the end of a line for outputs. -/
theorem C120_outcome (f : Finder K) (hf : SoundFinder f) (o : Options K) (m : Map K) (ds : List Str)
    (fs : List (Str → Lat K)) (h : List.Forall₂ (Means m) ds fs) (hne : ds ≠ []) (prepend : Bool) (input : Str) :
    ∃ s, processInput f o m ds prepend input = .ok s ∧
      ((s.getLast? = some 46 ∧ compile o.input input = none) ∨
       (s.getLast? = some 34 ∧ s = ascii "Rewrite failed for \"" ++ input ++ [34] ∧
         (compile o.input input).isSome) ∨
       (s.getLast? = some 10 ∧ ∃ x y c, compile o.input input = some x ∧ Derives fs x y c)) := by
  rw [processInput]
  cases hx : compile o.input input with
  | none => exact ⟨_, rfl, .inl ⟨by decide +kernel, rfl⟩⟩
  | some x =>
    simp only
    have hfail : (failure input).getLast? = some 34 := by simp [RewriteTester.failure]
    have := loop_any f o m (decide (1 < ds.length)) ds [(x, 0)] [] []
    rw [thraxCascade_full h, if_neg hne] at this
    obtain ⟨pre, hpre⟩ := this
    rw [hpre]
    simp only
    cases e : fstToStrings f o (full fs [(x, 0)]) with
    | mk outs b =>
      cases b with
      | false => exact ⟨_, rfl, .inr (.inl ⟨hfail, rfl, rfl⟩)⟩
      | true =>
        refine ⟨_, rfl, .inr (.inr ⟨?_, x, ?_⟩)⟩
        · obtain ⟨l, p, rfl⟩ : ∃ l p, outs = l ++ [p] := ⟨_, _, (List.dropLast_append_getLast (fstToStrings_true f o _ _ e)).symm⟩
          have : ([] ++ pre) ++ (l ++ [p]).flatMap (outputLine o prepend) =
              (pre ++ l.flatMap (outputLine o prepend) ++ ((if prepend then ascii "Output string: " else []) ++ p.1 ++
    (if o.noutput ≠ 1 ∧ p.2 ≠ 0 then ascii " <cost=" ++ o.costText p.2 ++ [62] else []))) ++ [10] := by
            simp only [List.flatMap_append, List.flatMap_cons, List.flatMap_nil, outputLine, newline]
            simp only [List.append_nil, List.nil_append, List.append_assoc]
          rw [this, List.getLast?_append]
          rfl
        · by_cases hl : full fs [(x, 0)] = []
          · exfalso
            rw [fstToStrings, hl] at e
            have : found f o.noutput [] = [] := by
              rw [found, hf.none]
              split
              · rfl
              · split
                · rfl
                · cases hm : f.many o.noutput.toNat [] with
                  | nil => rfl
                  | cons p ps =>
                    have := (hf.mem o.noutput.toNat [] p (by simp [hm])).1
                    simp at this
            rw [this] at e
            simp at e
          · obtain ⟨p, hp⟩ := List.exists_mem_of_ne_nil _ hl
            exact ⟨p.1, p.2, rfl, (mem_full_one fs x p.1 p.2).1 hp⟩

/-- C120: the details come before the outputs and change nothing else; a failure has none. -/
theorem C120_details (f : Finder K) (o : Options K) (m : Map K) (ds : List Str) (prepend : Bool) (input : Str) :
    match processInput f { o with details := false } m ds prepend input with
    | .ok s => ∃ pre, processInput f o m ds prepend input = .ok (pre ++ s) ∧ (s.getLast? ≠ some 10 → pre = [])
    | r => processInput f o m ds prepend input = r := by
  have hp : ∀ p y, pathText { o with details := false } p y = pathText o p y := by
    intro p y
    induction y generalizing p with
    | nil => rfl
    | cons l y ih =>
      rw [pathText, pathText]
      have : appendLabel { o with details := false } p l = appendLabel o p l := rfl
      rw [this]
      congr 1
      funext q
      exact ih q
  have hpp : ∀ l acc, printPaths { o with details := false } l acc = printPaths o l acc := by
    intro l
    induction l with
    | nil => intro acc; rfl
    | cons p l ih =>
      intro acc
      obtain ⟨y, c⟩ := p
      simp only [printPaths, hp]
      cases pathText o [] y with
      | none => rfl
      | some t => exact ih _
  have hs : ∀ l, fstToStrings f { o with details := false } l = fstToStrings f o l := by
    intro l
    simp only [fstToStrings, hpp]
  have hout : outputLine { o with details := false } prepend = outputLine o prepend := rfl
  simp only [processInput]
  cases hx : compile o.input input with
  | none => exact ⟨[], rfl, fun _ => rfl⟩
  | some x =>
    simp only
    have h1 := loop_any f o m (decide (1 < ds.length)) ds [(x, 0)] [] []
    rw [loop_plain f { o with details := false } m _ (by simp)]
    cases e : thraxCascade m (ds.map parseRuleDef) [(x, 0)] [] with
    | fatal => rw [e] at h1; simp only [Res.bind]; rw [h1]
    | fail => rw [e] at h1; simp only [Res.bind]; rw [h1]; exact ⟨[], rfl, fun _ => rfl⟩
    | ok r =>
      rw [e] at h1
      obtain ⟨pre, h2⟩ := h1
      simp only [Res.bind]
      rw [h2, hs, hout]
      simp only
      cases e2 : fstToStrings f o r with
      | mk outs b =>
        cases b with
        | false => exact ⟨[], rfl, fun _ => rfl⟩
        | true =>
          refine ⟨pre, by simp, fun hno => absurd ?_ hno⟩
          obtain ⟨l, p, rfl⟩ : ∃ l p, outs = l ++ [p] := ⟨_, _, (List.dropLast_append_getLast (fstToStrings_true f o _ _ e2)).symm⟩
          simp only [List.flatMap_append, List.flatMap_cons, List.flatMap_nil, outputLine, newline,
            List.append_nil, List.nil_append]
          rw [List.getLast?_append, List.getLast?_append]
          rfl

/-- C120 does not hold without a positive number: every input fails. -/
theorem C120_noutput_violated (f : Finder K) (o : Options K) (hn : o.noutput ≤ 0) (m : Map K) (ds : List Str)
    (prepend : Bool) (input s : Str) (hs : processInput f o m ds prepend input = .ok s) :
    s = ascii "Rewrite failed for \"" ++ input ++ [34] ∨ s = ascii "Unable to parse input string." := by
  rw [processInput] at hs
  cases hx : compile o.input input with
  | none => rw [hx] at hs; injection hs with hs; exact .inr hs.symm
  | some x =>
    rw [hx] at hs
    simp only at hs
    left
    split at hs
    · simp at hs
    · injection hs with hs; exact hs.symm
    · rename_i out s' _
      have : fstToStrings f o out = ([], false) := by
        rw [fstToStrings, found, if_neg (by omega), if_pos hn]
      rw [this] at hs
      injection hs with hs
      exact hs.symm

omit [AddMonoid K] [LinearOrder K] in
theorem loadArchive_isSome (far : List (Str × Entry K)) (n : Str) :
    ((loadArchive far).1 n).isSome ↔ ∃ e, (n, e) ∈ far := by
  have : ∀ (g : Map K), ((far.foldl (fun (m : Map K) e n => if n = e.1 then some e.2 else m n) g) n).isSome ↔
      (∃ e, (n, e) ∈ far) ∨ (g n).isSome := by
    induction far with
    | nil => intro g; simp
    | cons q far ih =>
      intro g
      rw [List.foldl_cons, ih]
      by_cases hq : n = q.1
      · subst hq
        simp only [if_true, Option.isSome_some, or_true, true_iff]
        exact .inl ⟨q.2, by simp⟩
      · simp only [if_neg hq, List.mem_cons]
        constructor
        · rintro (⟨e, he⟩ | hg)
          · exact .inl ⟨e, .inr he⟩
          · exact .inr hg
        · rintro (⟨e, rfl | he⟩ | hg)
          · exact absurd rfl hq
          · exact .inl ⟨e, he⟩
          · exact .inr hg
  rw [loadArchive, this]
  simp

omit [AddMonoid K] [LinearOrder K] in
/-- C120: the tester starts exactly if the archive is not empty and has every name in `--rules`; it then has
the rules in the order given. -/
theorem C120_setup (far : List (Str × Entry K)) (d : Str) (ds : List Str) (hc : ∀ e ∈ d :: ds, 44 ∉ e) :
    let known : Prop := ∀ e ∈ d :: ds, ∀ n, n = (parseRuleDef e).main ∨
      n ≠ [] ∧ (n = (parseRuleDef e).parens ∨ n = (parseRuleDef e).assigns) → ∃ t, (n, t) ∈ far
    (known → setup far ([44].intercalate (d :: ds)) = .ok ((loadArchive far).1, d :: ds)) ∧
    (¬ known → setup far ([44].intercalate (d :: ds)) = .fatal) := by
  intro known
  have hv : validate (loadArchive far).1 ((d :: ds).map parseRuleDef) = true ↔ known := by
    have := (C71_names (loadArchive far).1 [] (d :: ds)).2
    simp only [initFromDefs, List.nil_append] at this
    rw [this]
    refine forall_congr' fun e => forall_congr' fun _ => forall_congr' fun n => imp_congr Iff.rfl ?_
    rw [← loadArchive_isSome, Option.isSome_iff_exists]
  have hne : known → (loadArchive far).2 = true := by
    intro hk
    obtain ⟨t, ht⟩ := hk d (by simp) _ (.inl rfl)
    cases far with
    | nil => simp at ht
    | cons q far => rfl
  rw [setup, splitOn_intercalate 44 d ds hc]
  constructor
  · intro hk
    rw [if_pos (hne hk), if_neg (by simp), if_pos (hv.2 hk)]
  · intro hk
    rw [if_neg fun e => hk (hv.1 e)]
    simp

/-- C120: the answers are printed in the order of the inputs, each after a prompt and before an empty line. -/
theorem C120_run (f : Finder K) (hf : SoundFinder f) (o : Options K) (m : Map K) (ds : List Str)
    (fs : List (Str → Lat K)) (h : List.Forall₂ (Means m) ds fs) (hne : ds ≠ []) (inputs : List Str) :
    ∃ answers, List.Forall₂ (fun i a => processInput f o m ds true i = .ok a) inputs answers ∧
      RewriteTester.run f o m ds inputs =
        .ok (answers.flatMap (fun a => ascii "Input string: " ++ a ++ [10]) ++ ascii "Input string: ") := by
  induction inputs with
  | nil => exact ⟨[], .nil, rfl⟩
  | cons i is ih =>
    obtain ⟨as, h1, h2⟩ := ih
    obtain ⟨a, ha, -⟩ := C120_outcome f hf o m ds fs h hne true i
    refine ⟨a :: as, .cons ha h1, ?_⟩
    rw [RewriteTester.run, ha, h2]
    simp [Res.bind, newline]

/-- C120: with a table of symbols an input is refused exactly if one of its words is not in the table; in byte mode
no input is refused. -/
theorem C120_refused (f : Finder K) (hf : SoundFinder f) (o : Options K) (m : Map K) (ds : List Str)
    (fs : List (Str → Lat K)) (h : List.Forall₂ (Means m) ds fs) (hne : ds ≠ []) (prepend : Bool) (input : Str) :
    (∀ t, o.input = .symbol t →
      (processInput f o m ds prepend input = .ok (ascii "Unable to parse input string.") ↔
        ∃ w, IsWord w input ∧ ∀ e ∈ t, e.1 ≠ w)) ∧
    (o.input = .byte → processInput f o m ds prepend input ≠ .ok (ascii "Unable to parse input string.")) := by
  have key : processInput f o m ds prepend input = .ok (ascii "Unable to parse input string.") ↔
      compile o.input input = none := by
    constructor
    · intro e
      obtain ⟨s, hs, hc⟩ := C120_outcome f hf o m ds fs h hne prepend input
      rw [hs] at e
      have e' : s = ascii "Unable to parse input string." := by injection e
      have hl : s.getLast? = some 46 := by rw [e']; decide +kernel
      rcases hc with hc | hc | hc
      · exact hc.2
      · rw [hl] at hc; simp at hc
      · rw [hl] at hc; simp at hc
    · intro e
      rw [processInput, e]; rfl
  refine ⟨fun t ht => ?_, fun hb => ?_⟩
  · rw [key, ht, compile, allSome_none, List.mem_map]
    constructor
    · rintro ⟨w, hw, hn⟩
      refine ⟨w, mem_tokens.1 hw, fun e he hew => ?_⟩
      rw [labelOf, Option.map_eq_none_iff, List.find?_eq_none] at hn
      exact hn e he (by simp [hew])
    · rintro ⟨w, hw, hn⟩
      refine ⟨w, mem_tokens.2 hw, ?_⟩
      rw [labelOf, Option.map_eq_none_iff, List.find?_eq_none]
      intro e he
      simpa using hn e he
  · rw [ne_eq, key, hb]; simp [compile]

/-! ## Examples and violations -/

/-- Least cost of every string, cheapest first. -/
def testerFinder : Finder Nat where
  one l := l.find? fun p => l.all fun q => decide (p.2 ≤ q.2)
  many n l := ((l.insertionSort fun p q => p.2 ≤ q.2).foldr
    (fun p acc => p :: acc.filter fun q => q.1 ≠ p.1) []).take n

/-- A rule with two outputs, one of them twice. -/
def testerMap : Map Nat := fun n =>
  if n = ascii "R" then some { apply := fun x => [(x, 3), (98 :: x, 1), (x, 2)] }
  else if n = ascii "S" then some { apply := fun x => [(x ++ [99], 0)] } else none

/-- Settings. -/
def testerOptions : Options Nat := { costText := fun n => (toString n).toList.map Char.toNat }

theorem tester_means : List.Forall₂ (Means testerMap) [ascii "R", ascii "S"]
    [fun x => [(x, 3), (98 :: x, 1), (x, 2)], fun x => [(x ++ [99], 0)]] :=
  .cons (.rule (m := testerMap) (n := ascii "R") (e := { apply := fun x => [(x, 3), (98 :: x, 1), (x, 2)] })
    (by decide +kernel) (by rfl))
    (.cons (.rule (m := testerMap) (n := ascii "S") (e := { apply := fun x => [(x ++ [99], 0)] })
      (by decide +kernel) (by rfl)) .nil)

theorem tester_sorted (l : Lat Nat) :
    (l.insertionSort fun p q => p.2 ≤ q.2).Pairwise fun p q => p.2 ≤ q.2 := by
  haveI : Std.Total fun p q : Str × Nat => p.2 ≤ q.2 := ⟨fun a b => Nat.le_total _ _⟩
  haveI : IsTrans (Str × Nat) fun p q => p.2 ≤ q.2 := ⟨fun a b c => Nat.le_trans⟩
  exact List.pairwise_insertionSort _ l

theorem tester_sound : SoundFinder testerFinder where
  none := rfl
  one := by
    intro l hl
    have : ∃ p ∈ l, ∀ q ∈ l, p.2 ≤ q.2 := by
      induction l with
      | nil => exact absurd rfl hl
      | cons p l ih =>
        by_cases h : l = []
        · subst h; exact ⟨p, by simp, by simp⟩
        · obtain ⟨r, h1, h2⟩ := ih h
          by_cases h3 : p.2 ≤ r.2
          · exact ⟨p, by simp, fun q hq => by
              rcases List.mem_cons.1 hq with rfl | hq
              · exact Nat.le_refl _
              · exact Nat.le_trans h3 (h2 q hq)⟩
          · exact ⟨r, by simp [h1], fun q hq => by
              rcases List.mem_cons.1 hq with rfl | hq
              · omega
              · exact h2 q hq⟩
    obtain ⟨p, h1, h2⟩ := this
    cases e : testerFinder.one l with
    | none =>
      have := List.find?_eq_none.1 e p h1
      simp at this
      obtain ⟨a, b, hab, hlt⟩ := this
      have := h2 _ hab
      simp at this
      omega
    | some r =>
      refine ⟨r, rfl, List.mem_of_find?_eq_some e, ?_⟩
      have := List.find?_some e
      simpa using this
  nodup := by
    intro n l
    have : ∀ s : Lat Nat, ((s.foldr (fun p acc => p :: acc.filter fun q => q.1 ≠ p.1) []).map (·.1)).Nodup := by
      intro s
      induction s with
      | nil => simp
      | cons p s ih =>
        rw [List.foldr_cons, List.map_cons, List.nodup_cons]
        refine ⟨?_, ih.sublist (List.Sublist.map _ List.filter_sublist)⟩
        intro hc
        obtain ⟨q, hq, e⟩ := List.mem_map.1 hc
        have := (List.mem_filter.1 hq).2
        simp [e] at this
    exact (this _).sublist (List.Sublist.map _ (List.take_sublist _ _))
  mem := by
    intro n l p hp
    have hp := List.mem_of_mem_take hp
    have key : ∀ s : Lat Nat, s.Pairwise (fun p q => p.2 ≤ q.2) →
        ∀ p ∈ s.foldr (fun p acc => p :: acc.filter fun q => q.1 ≠ p.1) [],
          p ∈ s ∧ ∀ c, (p.1, c) ∈ s → p.2 ≤ c := by
      intro s
      induction s with
      | nil => simp
      | cons a s ih =>
        intro hs p hp
        rw [List.pairwise_cons] at hs
        rw [List.foldr_cons] at hp
        rcases List.mem_cons.1 hp with rfl | hp
        · refine ⟨by simp, fun c hc => ?_⟩
          rcases List.mem_cons.1 hc with e | hc
          · rw [← e]
          · exact hs.1 _ hc
        · obtain ⟨h1, h2⟩ := List.mem_filter.1 hp
          obtain ⟨h3, h4⟩ := ih hs.2 p h1
          refine ⟨by simp [h3], fun c hc => ?_⟩
          rcases List.mem_cons.1 hc with e | hc
          · rw [← e] at h2; simp at h2
          · exact h4 c hc
    have hperm := List.perm_insertionSort (fun p q : Str × Nat => p.2 ≤ q.2) l
    have hsort := tester_sorted l
    obtain ⟨h1, h2⟩ := key _ hsort p hp
    exact ⟨hperm.mem_iff.1 h1, fun c hc => h2 c (hperm.mem_iff.2 hc)⟩
  length := by intro n l; exact List.length_take_le _ _
  rest := by
    intro n l p hp hno
    have hperm := List.perm_insertionSort (fun p q : Str × Nat => p.2 ≤ q.2) l
    have hsort := tester_sorted l
    have hp := hperm.mem_iff.2 hp
    simp only [testerFinder] at hno ⊢
    generalize (l.insertionSort fun p q => p.2 ≤ q.2) = s at hp hno hsort ⊢
    have key : ∀ s : Lat Nat, s.Pairwise (fun p q => p.2 ≤ q.2) →
        (s.foldr (fun p acc => p :: acc.filter fun q => q.1 ≠ p.1) []).Pairwise (fun p q => p.2 ≤ q.2) ∧
        (∀ p ∈ s, ∃ c ≤ p.2, (p.1, c) ∈ s.foldr (fun p acc => p :: acc.filter fun q => q.1 ≠ p.1) []) ∧
        ∀ p ∈ s.foldr (fun p acc => p :: acc.filter fun q => q.1 ≠ p.1) [], p ∈ s := by
      intro s
      induction s with
      | nil => simp
      | cons a s ih =>
        intro hs
        rw [List.pairwise_cons] at hs
        obtain ⟨i1, i2, i3⟩ := ih hs.2
        rw [List.foldr_cons]
        refine ⟨?_, ?_, ?_⟩
        · rw [List.pairwise_cons]
          exact ⟨fun q hq => hs.1 q (i3 q (List.mem_filter.1 hq).1), i1.sublist List.filter_sublist⟩
        · intro p hp
          by_cases h : p.1 = a.1
          · rcases List.mem_cons.1 hp with rfl | hp
            · exact ⟨p.2, Nat.le_refl _, by simp⟩
            · exact ⟨a.2, hs.1 p hp, by simp [h]⟩
          · rcases List.mem_cons.1 hp with rfl | hp
            · exact absurd rfl h
            · obtain ⟨c, h1, h2⟩ := i2 p hp
              exact ⟨c, h1, List.mem_cons_of_mem _ (List.mem_filter.2 ⟨h2, by simpa using h⟩)⟩
        · intro p hp
          rcases List.mem_cons.1 hp with rfl | hp
          · simp
          · exact List.mem_cons_of_mem _ (i3 p (List.mem_filter.1 hp).1)
    obtain ⟨k1, k2, -⟩ := key s hsort
    generalize s.foldr (fun p acc => p :: acc.filter fun q => q.1 ≠ p.1) [] = u at hno k1 k2 ⊢
    obtain ⟨c, hc, hm⟩ := k2 p hp
    rw [← List.take_append_drop n u] at hm k1
    have hd : (p.1, c) ∈ u.drop n := by
      rcases List.mem_append.1 hm with h | h
      · exact absurd (List.mem_map.2 ⟨_, h, rfl⟩) hno
      · exact h
    refine ⟨?_, fun q hq => Nat.le_trans ((List.pairwise_append.1 k1).2.2 q hq _ hd) hc⟩
    rw [List.length_take]
    have := List.length_pos_of_mem hd
    rw [List.length_drop] at this
    omega

theorem tester_good : GoodOptions testerOptions :=
  ⟨rfl, trivial, by decide, by decide⟩

theorem tester_printable : ∀ y c,
    Derives (K := Nat) [fun x => [(x, 3), (98 :: x, 1), (x, 2)], fun x => [(x ++ [99], 0)]] (ascii "a") y c →
    Printable testerOptions.output y := by
  intro y c h
  have := (mem_full_one _ _ _ _).2 h
  simp [full, compose] at this
  have ha : ascii "a" = [97] := by decide +kernel
  rw [ha] at this
  intro l hl
  rcases this with ⟨rfl, -⟩ | ⟨rfl, -⟩ | ⟨rfl, -⟩ <;> simp at hl <;> omega

example := C120_one testerFinder tester_sound testerOptions testerMap _ _ tester_means (by simp) true (ascii "a")
  (ascii "a") rfl rfl (.inl rfl) tester_good tester_printable

example := C120_many testerFinder tester_sound { testerOptions with noutput := 2 } testerMap _ _ tester_means
  (by simp) true (ascii "a") (ascii "a") rfl (by decide) (by decide) (.inl rfl)
  ⟨rfl, trivial, by decide, by decide⟩ tester_printable

example : processInput testerFinder testerOptions testerMap [ascii "R", ascii "S"] true (ascii "a") =
    .ok (ascii "Output string: bac\n") := by decide +kernel

example : processInput testerFinder { testerOptions with details := true } testerMap [ascii "R", ascii "S"] true
    (ascii "a") = .ok (ascii "output of rule[R] is: ba\noutput of rule[S] is: bac\nOutput string: bac\n") := by
  decide +kernel

example : processInput testerFinder testerOptions testerMap [ascii "R", ascii "T"] true (ascii "a") =
    .ok (ascii "Rewrite failed for \"a\"") := by decide +kernel

/-- Symbols. -/
def testerTable : Table := [(ascii "AA", 97), (ascii "B", 98), (ascii "C", 99)]

example : GoodTable (.symbol testerTable) := by
  refine ⟨by decide +kernel, by decide +kernel, by decide +kernel⟩

example : processInput testerFinder { testerOptions with input := .symbol testerTable, output := .symbol testerTable }
    testerMap [ascii "R", ascii "S"] false (ascii "AA \tB") = .ok (ascii "B\t AA\t B\t C\n") := by decide +kernel

/-- The meaning of a rule `S` after which nothing but missing labels is left. -/
theorem tester_missing : ∀ y c, Derives (K := Nat) [fun x => [(x, 3), (98 :: x, 1), (x, 2)],
    fun x => [(x ++ [99], 0)]] (ascii "a") y c → ∃ l ∈ y, l ≠ 0 ∧ l ∉ ([(ascii "AA", 97)] : Table).map (·.2) := by
  intro y c h
  have := (mem_full_one _ _ _ _).2 h
  simp [full, compose] at this
  rcases this with ⟨rfl, -⟩ | ⟨rfl, -⟩ | ⟨rfl, -⟩ <;> exact ⟨99, by simp, by decide, by simp⟩

example := C120_missing testerFinder { testerOptions with output := .symbol [(ascii "AA", 97)] } testerMap _ _
  tester_means (by simp) true (ascii "a") (ascii "a") rfl tester_sound _ rfl rfl (.inl rfl) tester_missing

example := C120_outcome testerFinder tester_sound testerOptions testerMap _ _ tester_means (by simp) true

/-- The word BB is not in the table. -/
example : IsWord (ascii "BB") (ascii "AA BB") ∧ ∀ e ∈ [(ascii "AA", 97)], e.1 ≠ ascii "BB" :=
  ⟨⟨by decide +kernel, by decide +kernel, ascii "AA ", [], by decide +kernel, by
    intro c hc
    have : (ascii "AA ").getLast? = some 32 := by decide +kernel
    rw [this] at hc; exact .inr (by simpa using hc.symm), by simp⟩, by decide +kernel⟩

example := (C120_refused testerFinder tester_sound { testerOptions with input := .symbol [(ascii "AA", 97)] } testerMap
  _ _ tester_means (by simp) true (ascii "AA BB")).1 _ rfl

example := C120_run testerFinder tester_sound testerOptions testerMap _ _ tester_means (by simp)
  [ascii "a", ascii "b"]

example (e : Entry Nat) : setup [(ascii "R", e), (ascii "S", e)] (ascii "R,S") =
    .ok ((loadArchive [(ascii "R", e), (ascii "S", e)]).1, [ascii "R", ascii "S"]) := by
  have h := (C120_setup [(ascii "R", e), (ascii "S", e)] (ascii "R") [ascii "S"] (by decide +kernel)).1
  have e1 : parseRuleDef (ascii "R") = { main := ascii "R" } := by decide +kernel
  have e2 : parseRuleDef (ascii "S") = { main := ascii "S" } := by decide +kernel
  have e3 : [44].intercalate [ascii "R", ascii "S"] = ascii "R,S" := by decide +kernel
  rw [e3] at h
  refine h ?_
  intro d hd n hn
  simp only [List.mem_cons, List.not_mem_nil, or_false] at hd
  rcases hd with rfl | rfl
  · rw [e1] at hn
    simp only at hn
    rcases hn with rfl | ⟨h1, h2 | h2⟩
    · exact ⟨e, by simp⟩
    · exact absurd h2 h1
    · exact absurd h2 h1
  · rw [e2] at hn
    simp only at hn
    rcases hn with rfl | ⟨h1, h2 | h2⟩
    · exact ⟨e, by simp⟩
    · exact absurd h2 h1
    · exact absurd h2 h1

/-- C120: no rules at all are a rule with the empty name. -/
theorem C120_no_rules (far : List (Str × Entry Nat)) (h : ∀ e, ([], e) ∉ far) : setup far [] = .fatal := by
  have := (C120_setup far [] [] (by simp)).2 fun hk => by
    obtain ⟨t, ht⟩ := hk [] (by simp) [] (.inl (by decide +kernel))
    exact h t ht
  simpa [List.intercalate] using this

/-- A rule whose outputs are not bytes: a code point, and a generated symbol beside a text in brackets. -/
def testerOdd : Map Nat := fun n =>
  if n = ascii "U" then some { apply := fun _ => [([321], 0)] }
  else if n = ascii "G" then some { apply := fun _ => [([1000], 1), (ascii "[g]", 1)] } else none

/-- C120 needs bytes for the byte mode: a larger label is printed as another byte, without an error. -/
theorem C120_byte_violated :
    processInput testerFinder testerOptions testerOdd [ascii "U"] false (ascii "x") = .ok (ascii "A\n") := by
  decide +kernel

/-- C120 does not hold with generated symbols: two distinct outputs are printed alike. -/
theorem C120_generated_violated :
    processInput testerFinder { testerOptions with noutput := 2, generated := some [(ascii "g", 1000)] } testerOdd
      [ascii "G"] false (ascii "x") = .ok (ascii "[g] <cost=1>\n[g] <cost=1>\n") := by
  decide +kernel

example : processInput testerFinder { testerOptions with noutput := 0 } testerMap [ascii "R"] true (ascii "a") =
    .ok (ascii "Rewrite failed for \"a\"") := by decide +kernel

end Nisaba.Props
