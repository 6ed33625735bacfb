import Verif.Props.PairLM
/-!
# Concurrent transliteration of words and lines (C61, C64-C66)
-/
set_option linter.unusedSectionVars false
namespace Nisaba.Props
open Nisaba.PairLM

section
variable {K : Type} [Field K] [LinearOrder K] [IsStrictOrderedRing K]

/-- `r` gives every output its share of the weight in `c`. -/
structure IsShare (c r : Cands K) : Prop where
  once : (r.map (·.1)).Nodup
  same : ∀ y, y ∈ r.map (·.1) ↔ y ∈ c.map (·.1)
  weight : ∀ y, weightOf r y * total c = weightOf c y
  total : total r = 1

theorem push_isShare {c : Cands K} (h : Proper c) : IsShare c (push c) := by
  have ht := h.total_pos.ne'
  refine ⟨by rw [keys_push]; exact firsts_nodup _, fun y => by rw [keys_push]; exact mem_firsts,
    fun y => ?_, total_push ht⟩
  rw [weightOf_push, div_mul_cancel₀ _ ht]

/-- Candidates of a part of a word: those of the model, or the external ones, or the part itself. -/
def partCands (best : Str → Cands K) (E : Str → Option (Cands K)) (s : Str) : Cands K :=
  if best s ≠ [] then best s
  else match E s with
    | some e => push e
    | none => [(s, 1)]

/-- What a word should get: the shares of its external candidates, or else the shares of the
candidates of the model, for the whole word or put together from its runs. -/
def Expected (P : Params K) (E : Str → Option (Cands K)) (k : Nat) (w : Str) (r : Cands K) : Prop :=
  (∀ e, E w = some e → IsShare e r) ∧
  (E w = none →
    ((∃ b, ∀ c ∈ w, P.covered c = b) → IsShare (partCands (P.best · k) E w) r) ∧
    ((¬ ∃ b, ∀ c ∈ w, P.covered c = b) → ∃ parts, Seg.IsRuns P.covered w parts ∧
      IsShare (concatBest k (parts.map (partCands (P.best · k) E))) r))

theorem two_runs {covered : Nat → Bool} {w : Str} {parts : List Str}
    (hu : ¬ ∃ b, ∀ c ∈ w, covered c = b) (h : Seg.IsRuns covered w parts) : 1 < parts.length := by
  match parts, h with
  | [], h =>
    exact absurd ⟨true, by have := h.whole; simp at this; subst this; simp⟩ hu
  | [s], h =>
    exact absurd (by have := h.whole; simp at this; subst this; exact (h.part _ (by simp)).2) hu
  | _ :: _ :: _, _ => simp

theorem result_expected {P : Params K} {E : Str → Option (Cands K)} {k : Nat} (hG : Good P E k)
    (w : Str) : Expected P E k w (result P E k w) := by
  constructor
  · intro e he
    unfold result
    rw [he]
    exact push_isShare (hG.ext w e he)
  · intro hE
    have hr : result P E k w = push (wordResult P E k w) := by
      unfold result
      rw [hE]
    have hw := push_isShare (hG.wordResult w)
    rw [← hr] at hw
    constructor
    · intro hu
      have : wordResult P E k w = partCands (P.best · k) E w := by
        unfold wordResult segmentsOf
        rw [segmentCovered_uniform hu]
        rfl
      rwa [this] at hw
    · intro hu
      have hs := ((C62_segments P.covered w _).1 rfl)
      rcases hs with ⟨h, _⟩ | ⟨_, hs⟩
      · exact absurd h hu
      refine ⟨_, hs, ?_⟩
      have h2 := two_runs hu hs
      have : wordResult P E k w =
          concatBest k ((segmentCovered P.covered w).map (partCands (P.best · k) E)) := by
        unfold wordResult segmentsOf
        simp only [h2, if_true, gt_iff_lt]
        rfl
      rwa [this] at hw

/-! ## Initialization -/

/-- What is known of the caches while the lines are read. -/
theorem external_fold (o : Bool) : ∀ (lines : List (Str × Str × K)) (d : Decoder K),
    (∀ l ∈ lines, 0 < l.2.2) → (∀ w e, d.cache w = some e → Proper e) →
    (o = true → ∀ w, d.over w = true ↔ d.cache w ≠ none) →
    let d' := lines.foldl (fun d l =>
      { d with
        cache := setCache d.cache l.1 l.2.1 l.2.2
        over := if o then fun v => if v = l.1 then true else d.over v else d.over }) d
    (∀ w e, d'.cache w = some e → Proper e) ∧
      (o = true → ∀ w, d'.over w = true ↔ d'.cache w ≠ none)
  | [], d, _, h1, h2 => ⟨h1, h2⟩
  | l :: lines, d, h0, h1, h2 => by
    refine external_fold o lines _ (fun x hx => h0 x (List.mem_cons_of_mem _ hx)) ?_ ?_
    · intro w e he
      simp only [setCache] at he
      split at he
      · cases he
        rename_i hw
        have hl := h0 l (by simp)
        have hpos : ∀ p ∈ (d.cache l.1).getD [], 0 < p.2 := by
          intro p hp
          cases hd : d.cache l.1 with
          | none => simp [hd] at hp
          | some e => rw [hd] at hp; exact (h1 _ _ hd).2 p hp
        unfold setCand
        split
        · rename_i ha
          refine ⟨?_, ?_⟩
          · intro e
            rw [List.map_eq_nil_iff.1 e] at ha
            simp at ha
          · intro p hp
            obtain ⟨q, hq, rfl⟩ := List.mem_map.1 hp
            split
            · exact hl
            · exact hpos q hq
        · refine ⟨by simp, ?_⟩
          intro p hp
          rcases List.mem_append.1 hp with hp | hp
          · exact hpos p hp
          · rw [List.mem_singleton.1 hp]; exact hl
      · exact h1 w e he
    · intro ho w
      simp only [ho, if_true, setCache]
      by_cases e : w = l.1
      · simp [e]
      · simp only [e, if_false]
        exact h2 ho w

theorem initDecoder_mix (cfg : Config K) : (initDecoder cfg).mix = 1 := rfl

theorem initExternal_cache (cfg : Config K) (d : Decoder K) (hd : d.cache = fun _ => none)
    (ho : d.over = fun _ => false) (hpos : ∀ l ∈ cfg.lines, 0 < l.2.2) :
    (∀ w e, (initExternal cfg d).cache w = some e → Proper e) ∧
    (cfg.override = true ∨ cfg.lines = [] →
      ∀ w, (initExternal cfg d).over w = true ↔ (initExternal cfg d).cache w ≠ none) := by
  unfold initExternal
  split
  · rename_i hl
    rw [hd, ho]
    simp
  · rename_i hl
    have := external_fold cfg.override cfg.lines d hpos (by simp [hd]) (by simp [hd, ho])
    simp only at this ⊢
    have h' : ∀ d' : Decoder K, ((∀ w e, d'.cache w = some e → Proper e) ∧
        (cfg.override = true → ∀ w, d'.over w = true ↔ d'.cache w ≠ none)) →
        (∀ w e, d'.cache w = some e → Proper e) ∧
        (cfg.override = true ∨ cfg.lines = [] → ∀ w, d'.over w = true ↔ d'.cache w ≠ none) :=
      fun d' h => ⟨h.1, fun h' => h.2 (h'.resolve_right hl)⟩
    split
    · split
      · exact h' _ this
      · exact h' _ this
    · exact h' _ this

theorem initDecoder_cache (cfg : Config K) (hpos : ∀ l ∈ cfg.lines, 0 < l.2.2) :
    (∀ w e, (initDecoder cfg).cache w = some e → Proper e) ∧
    (cfg.override = true ∨ cfg.lines = [] →
      ∀ w, (initDecoder cfg).over w = true ↔ (initDecoder cfg).cache w ≠ none) := by
  unfold initDecoder
  exact initExternal_cache cfg _ rfl rfl hpos

/-- The lines for word `w` and output `y`. -/
def linesFor (lines : List (Str × Str × K)) (w y : Str) : List (Str × Str × K) :=
  lines.filter fun l => decide (l.1 = w ∧ l.2.1 = y)

/-- What the lines say of the external candidates. -/
structure Loaded (o : Bool) (lines : List (Str × Str × K)) (d : Decoder K) : Prop where
  none_iff : ∀ w, d.cache w = none ↔ ∀ l ∈ lines, l.1 ≠ w
  nodup : ∀ w e, d.cache w = some e → (e.map (·.1)).Nodup
  mem : ∀ w e, d.cache w = some e → ∀ y p, (y, p) ∈ e ↔ (linesFor lines w y).getLast? = some (w, y, p)
  over : ∀ w, d.over w = true ↔ o = true ∧ ∃ l ∈ lines, l.1 = w

theorem setCand_mem {c : Cands K} {y : Str} {p : K} {z : Str} {q : K} (hn : (c.map (·.1)).Nodup) :
    (z, q) ∈ setCand c y p ↔ (z = y ∧ q = p) ∨ (z ≠ y ∧ (z, q) ∈ c) := by
  unfold setCand
  split
  · rename_i h
    simp only [List.any_eq_true, decide_eq_true_eq] at h
    obtain ⟨a, ha, rfl⟩ := h
    simp only [List.mem_map]
    constructor
    · rintro ⟨b, hb, e⟩
      split at e
      · cases e
        exact .inl ⟨rfl, rfl⟩
      · rename_i hne
        subst e
        exact .inr ⟨hne, hb⟩
    · rintro (⟨rfl, rfl⟩ | ⟨hne, h⟩)
      · exact ⟨a, ha, by simp⟩
      · exact ⟨_, h, by simp [hne]⟩
  · rename_i h
    simp only [List.any_eq_true, decide_eq_true_eq, not_exists, not_and] at h
    simp only [List.mem_append, List.mem_singleton, Prod.mk.injEq]
    constructor
    · rintro (h' | h')
      · exact .inr ⟨h _ h', h'⟩
      · exact .inl h'
    · rintro (h' | h')
      · exact .inr h'
      · exact .inl h'.2

theorem setCand_nodup {c : Cands K} {y : Str} {p : K} (hn : (c.map (·.1)).Nodup) :
    ((setCand c y p).map (·.1)).Nodup := by
  unfold setCand
  split
  · rw [List.map_map, show ((fun q : Str × K => q.1) ∘ fun q : Str × K => if q.1 = y then (y, p) else q)
      = fun q => q.1 from funext fun q => by by_cases e : q.1 = y <;> simp [e]]
    exact hn
  · rename_i h
    simp only [List.any_eq_true, decide_eq_true_eq, not_exists, not_and] at h
    rw [List.map_append]
    refine List.nodup_append.2 ⟨hn, by simp, ?_⟩
    rintro a ha b hb rfl
    simp only [List.map_cons, List.map_nil, List.mem_singleton] at hb
    subst hb
    obtain ⟨q, hq, e⟩ := List.mem_map.1 ha
    exact h q hq e

theorem loaded_snoc {o : Bool} {lines : List (Str × Str × K)} {d : Decoder K} (h : Loaded o lines d)
    (l : Str × Str × K) : Loaded o (lines ++ [l])
      { d with
        cache := setCache d.cache l.1 l.2.1 l.2.2
        over := if o then fun v => if v = l.1 then true else d.over v else d.over } := by
  have hold : (((d.cache l.1).getD []).map (·.1)).Nodup := by
    cases hd : d.cache l.1 with
    | none => simp
    | some e => exact h.nodup _ _ hd
  refine ⟨fun w => ?_, fun w e he => ?_, fun w e he y p => ?_, fun w => ?_⟩
  · simp only [setCache]
    by_cases e : w = l.1
    · simp only [e, if_true, reduceCtorEq, false_iff]
      intro h'
      exact h' l (by simp) rfl
    · have e' : l.1 ≠ w := fun h => e h.symm
      simp only [e, if_false, h.none_iff w, List.mem_append, List.mem_singleton]
      constructor
      · rintro h' x (hx | rfl)
        · exact h' x hx
        · exact e'
      · exact fun h' x hx => h' x (.inl hx)
  · simp only [setCache] at he
    split at he
    · cases he
      exact setCand_nodup hold
    · exact h.nodup w e he
  · simp only [setCache] at he
    split at he
    · rename_i hw
      subst hw
      cases he
      rw [setCand_mem hold]
      have hprev : (y, p) ∈ (d.cache l.1).getD [] ↔ (linesFor lines l.1 y).getLast? = some (l.1, y, p) := by
        cases hd : d.cache l.1 with
        | some e => exact h.mem _ _ hd y p
        | none =>
          have hn := (h.none_iff l.1).1 hd
          have : linesFor lines l.1 y = [] := by
            unfold linesFor
            rw [List.filter_eq_nil_iff]
            intro x hx
            simp [hn x hx]
          simp [this]
      by_cases e : l.2.1 = y
      · have hl : linesFor (lines ++ [l]) l.1 y = linesFor lines l.1 y ++ [l] := by
          simp [linesFor, List.filter_append, e]
        rw [hl]
        subst e
        simp only [true_and, ne_eq, not_true_eq_false, false_and, or_false, List.getLast?_append,
          List.getLast?_singleton, Option.some_or, Option.some.injEq]
        constructor
        · rintro rfl; rfl
        · intro h'; rw [h']
      · have e' : ¬ y = l.2.1 := fun h => e h.symm
        have hl : linesFor (lines ++ [l]) l.1 y = linesFor lines l.1 y := by
          simp [linesFor, List.filter_append, e]
        rw [hl]
        simp only [e', false_and, ne_eq, not_false_eq_true, true_and, false_or]
        exact hprev
    · rename_i hw
      have hl : linesFor (lines ++ [l]) w y = linesFor lines w y := by
        have : ¬ l.1 = w := fun h => hw h.symm
        simp [linesFor, List.filter_append, this]
      rw [hl]
      exact h.mem w e he y p
  · cases o with
    | false =>
      have := h.over w
      simpa using this
    | true =>
      have := h.over w
      simp only [if_true, true_and] at this ⊢
      by_cases e : w = l.1
      · subst e
        simp only [if_true, true_iff]
        exact ⟨l, by simp, rfl⟩
      · have e' : ¬ l.1 = w := fun h => e h.symm
        simp only [e, if_false, this, List.mem_append, List.mem_singleton]
        constructor
        · rintro ⟨x, hx, h⟩
          exact ⟨x, .inl hx, h⟩
        · rintro ⟨x, hx | rfl, h⟩
          · exact ⟨x, hx, h⟩
          · exact absurd h e'

/-- C61: the external candidates of a word after initialization are the outputs in the lines for this
word, each with the weight of the last such line; they override the model exactly if configured. -/
theorem C61_external (cfg : Config K) :
    (∀ w, (initDecoder cfg).cache w = none ↔ ∀ l ∈ cfg.lines, l.1 ≠ w) ∧
    (∀ w e, (initDecoder cfg).cache w = some e → (e.map (·.1)).Nodup ∧
      ∀ y p, (y, p) ∈ e ↔
        (cfg.lines.filter fun l => decide (l.1 = w ∧ l.2.1 = y)).getLast? = some (w, y, p)) ∧
    (∀ w, (initDecoder cfg).over w = true ↔ cfg.override = true ∧ ∃ l ∈ cfg.lines, l.1 = w) := by
  have h0 : ∀ d : Decoder K, (d.cache = fun _ => none) → (d.over = fun _ => false) →
      Loaded cfg.override cfg.lines (initExternal cfg d) := by
    intro d hd ho
    have hnil : Loaded cfg.override [] d :=
      ⟨by simp [hd], by simp [hd], by simp [hd], by simp [ho]⟩
    have hfold : ∀ (ls done : List (Str × Str × K)) (d : Decoder K), Loaded cfg.override done d →
        Loaded cfg.override (done ++ ls) (ls.foldl (fun d l =>
          { d with
            cache := setCache d.cache l.1 l.2.1 l.2.2
            over := if cfg.override then fun v => if v = l.1 then true else d.over v else d.over }) d) := by
      intro ls
      induction ls with
      | nil => intro done d h; simpa using h
      | cons l ls ih =>
        intro done d h
        have := ih (done ++ [l]) _ (loaded_snoc h l)
        simpa using this
    have hall := hfold cfg.lines [] d hnil
    rw [List.nil_append] at hall
    have hany : ∀ d' : Decoder K, Loaded cfg.override cfg.lines d' → ∀ m,
        Loaded cfg.override cfg.lines { d' with mix := m } :=
      fun d' h m => ⟨h.none_iff, h.nodup, h.mem, h.over⟩
    unfold initExternal
    split
    · rename_i hl
      rw [hl]
      exact hnil
    · simp only
      split
      · split
        · exact hany _ hall _
        · exact hany _ hall _
      · exact hall
  have h := h0 { (⟨fun _ => none, fun _ => false, 1, true, 0⟩ : Decoder K) with
    addToCache := cfg.addToCache.getD true } rfl rfl
  exact ⟨h.none_iff, fun w e he => ⟨h.nodup w e he, h.mem w e he⟩, h.over⟩

/-- The constant part of an initialized decoder with the results of the model. -/
def paramsOf (d : Decoder K) (best : Str → Nat → Cands K) (covered : Nat → Bool) : Params K :=
  ⟨best, covered, d.mix, d.addToCache⟩

/-- The system in which an initialized decoder is given words. -/
def sysOf (d : Decoder K) (tasks : List (PairLM.Task K)) : Sys K := Sys.initial ⟨d.cache, d.over⟩ tasks

theorem good_of (cfg : Config K) (hpos : ∀ l ∈ cfg.lines, 0 < l.2.2) (best : Str → Nat → Cands K)
    (covered : Nat → Bool) {k : Nat} (hk : 0 < k) (hb : ∀ s, ∀ p ∈ best s k, 0 < p.2) :
    Good (paramsOf (initDecoder cfg) best covered) (initDecoder cfg).cache k :=
  ⟨hk, by simp [paramsOf, initDecoder_mix], hb, (initDecoder_cache cfg hpos).1⟩

/-! ## C64 -/

/-- C64: as long as external candidates override the model, and with one `k`, every word of every line
gets what is expected for it alone, in whatever order the threads proceed. -/
theorem C64_interleaving_partial (cfg : Config K) (hpos : ∀ l ∈ cfg.lines, 0 < l.2.2)
    (ho : cfg.override = true ∨ cfg.lines = [])
    (best : Str → Nat → Cands K) (covered : Nat → Bool) (k : Nat) (hk : 0 < k)
    (hb : ∀ s, ∀ p ∈ best s k, 0 < p.2)
    (tasks : List (PairLM.Task K)) (ht : ∀ t ∈ tasks, t.k = k ∧ t.pc = .start) (s : Sys K)
    (hr : Run (paramsOf (initDecoder cfg) best covered) (sysOf (initDecoder cfg) tasks) s) :
    (s.tasks.map fun t => (t.ctx, t.word, t.k)) = (tasks.map fun t => (t.ctx, t.word, t.k)) ∧
    ∀ t ∈ s.tasks, ∀ r, t.pc = .done r →
      Expected (paramsOf (initDecoder cfg) best covered) (initDecoder cfg).cache k t.word r := by
  have hG := good_of cfg hpos best covered hk hb
  have hinv := (Inv.initial ((initDecoder_cache cfg hpos).2 ho) ht).run hG hr
  constructor
  · clear hinv
    generalize hs0 : sysOf (initDecoder cfg) tasks = s0 at hr
    induction hr with
    | nil => subst hs0; rfl
    | snoc _ hs ih =>
      rw [← ih]
      obtain ⟨e, h⟩ := hs
      rw [e]
      simp only [List.map_append, List.map_cons]
      cases h <;> rfl
  · intro t htm r hd
    have := (hinv.task t htm).2
    rw [hd] at this
    simp only at this
    rw [this]
    exact result_expected hG t.word

/-- C64: two executions give a word the same candidates with the same weights in the same order. -/
theorem C64_same_partial (cfg : Config K) (hpos : ∀ l ∈ cfg.lines, 0 < l.2.2)
    (ho : cfg.override = true ∨ cfg.lines = [])
    (best : Str → Nat → Cands K) (covered : Nat → Bool) (k : Nat) (hk : 0 < k)
    (hb : ∀ s, ∀ p ∈ best s k, 0 < p.2)
    (ts1 ts2 : List (PairLM.Task K)) (h1 : ∀ t ∈ ts1, t.k = k ∧ t.pc = .start)
    (h2 : ∀ t ∈ ts2, t.k = k ∧ t.pc = .start) (s1 s2 : Sys K)
    (hr1 : Run (paramsOf (initDecoder cfg) best covered) (sysOf (initDecoder cfg) ts1) s1)
    (hr2 : Run (paramsOf (initDecoder cfg) best covered) (sysOf (initDecoder cfg) ts2) s2)
    (t1 t2 : PairLM.Task K) (ht1 : t1 ∈ s1.tasks) (ht2 : t2 ∈ s2.tasks) (hw : t1.word = t2.word)
    (r1 r2 : Cands K) (hd1 : t1.pc = .done r1) (hd2 : t2.pc = .done r2) : r1 = r2 := by
  have hG := good_of cfg hpos best covered hk hb
  have i1 := ((Inv.initial ((initDecoder_cache cfg hpos).2 ho) h1).run hG hr1).task t1 ht1
  have i2 := ((Inv.initial ((initDecoder_cache cfg hpos).2 ho) h2).run hG hr2).task t2 ht2
  have i1 := i1.2
  have i2 := i2.2
  rw [hd1] at i1
  rw [hd2] at i2
  simp only at i1 i2
  rw [i1, i2, hw]

/-- C64: the threads never wait for each other for ever: as long as a word has no result some thread
can go on. -/
theorem C64_no_deadlock_partial (cfg : Config K) (hpos : ∀ l ∈ cfg.lines, 0 < l.2.2)
    (ho : cfg.override = true ∨ cfg.lines = [])
    (best : Str → Nat → Cands K) (covered : Nat → Bool) (k : Nat) (hk : 0 < k)
    (hb : ∀ s, ∀ p ∈ best s k, 0 < p.2)
    (tasks : List (PairLM.Task K)) (ht : ∀ t ∈ tasks, t.k = k ∧ t.pc = .start) (s : Sys K)
    (hr : Run (paramsOf (initDecoder cfg) best covered) (sysOf (initDecoder cfg) tasks) s)
    (hmax : ∀ s', ¬ Step (paramsOf (initDecoder cfg) best covered) s s') :
    ∀ t ∈ s.tasks, ∃ r, t.pc = .done r := by
  have hG := good_of cfg hpos best covered hk hb
  have hinv := (Inv.initial ((initDecoder_cache cfg hpos).2 ho) ht).run hG hr
  intro t htm
  apply Classical.byContradiction
  intro hn
  obtain ⟨s', hs⟩ := hinv.progress htm fun r e => hn ⟨r, e⟩
  exact hmax s' hs

/-- C64: and they go on only finitely long. -/
theorem C64_terminates (P : Params K) (f : Nat → Sys K) : ¬ ∀ n, Step P (f n) (f (n + 1)) := by
  intro h
  have : ∀ n, (f n).left P + n ≤ (f 0).left P := by
    intro n
    induction n with
    | zero => simp
    | succ n ih => have := (h n).left; omega
  have := this ((f 0).left P + 1)
  omega

/-! ## C61 -/

/-- What is known while one thread transliterates a word with external candidates `e` that the model
knows as well. -/
def AloneOk (P : Params K) (g : Global K) (w : Str) (k : Nat) (e : Cands K) (s : Sys K) : Prop :=
  ∃ t, s.tasks = [t] ∧ t.word = w ∧ t.k = k ∧ ((∀ r, t.pc ≠ .done r) → s.glob = g) ∧
  match t.pc with
  | .start => s.ctxs t.ctx = Ctx.new
  | .initializing o => o = false
  | .ready => (s.ctxs t.ctx).loc w = some (push e) ∧ (s.ctxs t.ctx).mixed w = false
  | .decoding ds rest b => (s.ctxs t.ctx).loc w = some (push e) ∧ (s.ctxs t.ctx).mixed w = false ∧
      b = false ∧ ((ds = [] ∧ rest = [w]) ∨ (ds = [P.best w k] ∧ rest = []))
  | .decoded r => (s.ctxs t.ctx).loc w = some (push e) ∧ (s.ctxs t.ctx).mixed w = false ∧
      r = P.best w k
  | .mixing r => (s.ctxs t.ctx).loc w = some (push e) ∧ r = P.best w k
  | .returning => False
  | .done r => r = mixture P (P.best w k) (push e)

theorem AloneOk.step {P : Params K} {g : Global K} {w : Str} {k : Nat} {e : Cands K}
    (hu : ∃ b, ∀ c ∈ w, P.covered c = b) (hb : P.best w k ≠ [])
    (hc : g.cache w = some e) (ho : g.over w = false) {s s' : Sys K}
    (h : AloneOk P g w k e s) (hs : Step P s s') : AloneOk P g w k e s' := by
  have hseg : segmentsOf P w = ([w], false) := by
    unfold segmentsOf
    rw [segmentCovered_uniform hu]
    rfl
  obtain ⟨t, htasks, hw, hk, hg, hpc⟩ := h
  obtain ⟨e1, hstep⟩ := hs
  rename_i a b u u' g' c'
  rw [htasks] at e1
  have hab : a = [] ∧ b = [] ∧ u = t := by
    match a, e1 with
    | [], e1 => simp at e1; exact ⟨rfl, e1.2, e1.1.symm⟩
    | x :: a, e1 => simp at e1
  obtain ⟨rfl, rfl, rfl⟩ := hab
  cases hstep with
  | enter hh hl =>
    simp only at hw hk
    subst hw hk
    have hg' := hg (by simp)
    refine ⟨_, rfl, rfl, rfl, fun _ => hg', ?_⟩
    simp only
    rw [hg']
    exact ho
  | skip hh hl =>
    simp only at hpc
    rw [hpc] at hl
    exact absurd rfl hl
  | @init i v k' o =>
    simp only at hw hk hpc
    subst hw hk hpc
    have hg' := hg (by simp)
    refine ⟨_, rfl, rfl, rfl, fun _ => hg', ?_⟩
    simp [update, Ctx.set, hg', Global.known, hc]
  | cached hh hcw hm =>
    simp only at hw hpc
    subst hw
    rw [hpc.2] at hm
    simp at hm
  | decode hh hn =>
    simp only at hw hk hpc
    subst hw hk
    have hg' := hg (by simp)
    refine ⟨_, rfl, rfl, rfl, fun _ => hg', ?_⟩
    simp only [update, if_true, hseg]
    exact ⟨hpc.1, hpc.2, trivial, .inl ⟨trivial, trivial⟩⟩
  | segmentCached hh hbs he =>
    simp only at hw hk hpc
    subst hw hk
    rcases hpc.2.2.2 with ⟨_, h⟩ | ⟨_, h⟩
    · cases h
      exact absurd hbs hb
    · simp at h
  | segmentCopied hbs he =>
    simp only at hw hk hpc
    subst hw hk
    rcases hpc.2.2.2 with ⟨_, h⟩ | ⟨_, h⟩
    · cases h
      exact absurd hbs hb
    · simp at h
  | segment hbs =>
    simp only at hw hk hpc
    subst hw hk
    have hg' := hg (by simp)
    refine ⟨_, rfl, rfl, rfl, fun _ => hg', ?_⟩
    rcases hpc.2.2.2 with ⟨h1, h⟩ | ⟨_, h⟩
    · cases h
      simp only [update, if_true, h1]
      exact ⟨hpc.1, hpc.2.1, hpc.2.2.1, .inr ⟨rfl, trivial⟩⟩
    · simp at h
  | joined =>
    simp only at hw hk hpc
    subst hw hk
    have hg' := hg (by simp)
    refine ⟨_, rfl, rfl, rfl, fun _ => hg', ?_⟩
    rcases hpc.2.2.2 with ⟨_, h⟩ | ⟨h1, _⟩
    · simp at h
    · simp only [update, if_true, h1, hpc.2.2.1]
      exact ⟨hpc.1, hpc.2.1, rfl⟩
  | mixed hh hm =>
    simp only at hw hpc
    subst hw
    rw [hpc.2.1] at hm
    simp at hm
  | toMix hh hm =>
    simp only at hw hk hpc
    subst hw hk
    have hg' := hg (by simp)
    refine ⟨_, rfl, rfl, rfl, fun _ => hg', ?_⟩
    simp only [update, if_true]
    exact ⟨hpc.1, hpc.2.2⟩
  | mix hh hl =>
    simp only at hw hk hpc
    subst hw hk
    refine ⟨_, rfl, rfl, rfl, fun h => absurd rfl (h _), ?_⟩
    rw [hpc.1] at hl
    cases hl
    simp only [hpc.2]
  | return_ hh hl =>
    simp only at hpc

theorem AloneOk.run {P : Params K} {g : Global K} {w : Str} {k : Nat} {e : Cands K}
    (hu : ∃ b, ∀ c ∈ w, P.covered c = b) (hb : P.best w k ≠ [])
    (hc : g.cache w = some e) (ho : g.over w = false) {i : Nat} {s : Sys K}
    (hr : Run P (Sys.initial g [⟨i, w, k, .start⟩]) s) : AloneOk P g w k e s := by
  generalize hs0 : Sys.initial g [⟨i, w, k, .start⟩] = s0 at hr
  induction hr with
  | nil =>
    subst hs0
    exact ⟨_, rfl, rfl, rfl, fun _ => rfl, rfl⟩
  | snoc _ hs ih => exact ih.step hu hb hc ho hs

/-- C61, the computation itself: with the factor that belongs to a mixture weight `lam`, a word that
both the external candidates `e` and the model know gets `lam` parts of the model's weights and
`1 - lam` parts of the external shares, divided by the sum. -/
theorem C61_mixture (P : Params K) (g : Global K) (w : Str) (k : Nat) (e : Cands K)
    (hu : ∃ b, ∀ c ∈ w, P.covered c = b) (hb : P.best w k ≠ [])
    (hpos : ∀ p ∈ P.best w k, 0 < p.2) (he : e ≠ [] ∧ ∀ p ∈ e, 0 < p.2)
    (hc : g.cache w = some e) (ho : g.over w = false)
    (lam : K) (h0 : 0 < lam) (h1 : lam < 1) (hm : P.mix = lam / (1 - lam))
    (i : Nat) (s : Sys K) (hr : Run P (Sys.initial g [⟨i, w, k, .start⟩]) s)
    (t : PairLM.Task K) (ht : t ∈ s.tasks) (r : Cands K) (hd : t.pc = .done r) (y : Str) :
    weightOf r y * (lam * total (P.best w k) + (1 - lam)) =
      lam * weightOf (P.best w k) y + (1 - lam) * (weightOf e y / total e) := by
  obtain ⟨t', h, _, _, _, hpc⟩ := AloneOk.run hu hb hc ho hr
  rw [h, List.mem_singleton] at ht
  subst ht
  rw [hd] at hpc
  simp only at hpc
  rw [hpc]
  have hl : (1 : K) - lam ≠ 0 := (sub_pos.2 h1).ne'
  have hF : 0 < total (P.best w k) := Proper.total_pos ⟨hb, hpos⟩
  have hE : 0 < total e := Proper.total_pos he
  have hmp : 0 < P.mix := by rw [hm]; exact div_pos h0 (sub_pos.2 h1)
  have hmix : mixture P (P.best w k) (push e) = push (scale P.mix (P.best w k) ++ push e) := rfl
  rw [hmix, weightOf_push, weightOf_append, total_append, weightOf_scale, total_scale, weightOf_push,
    total_push hE.ne']
  have hden : total (P.best w k) * P.mix + 1 ≠ 0 := (add_pos (mul_pos hF hmp) one_pos).ne'
  have key : lam * total (P.best w k) + (1 - lam) =
      (total (P.best w k) * P.mix + 1) * (1 - lam) := by
    rw [hm]
    field_simp
  rw [key, ← mul_assoc, div_mul_cancel₀ _ hden, hm]
  field_simp

/-- C61: an initialized decoder mixes external candidates and the model half and half. -/
theorem C61_half_partial (cfg : Config K) (hcfg : ∀ l ∈ cfg.lines, 0 < l.2.2)
    (best : Str → Nat → Cands K) (covered : Nat → Bool) (w : Str) (k : Nat) (e : Cands K)
    (hu : ∃ b, ∀ c ∈ w, covered c = b) (hb : best w k ≠ []) (hpos : ∀ p ∈ best w k, 0 < p.2)
    (hc : (initDecoder cfg).cache w = some e) (ho : (initDecoder cfg).over w = false)
    (i : Nat) (s : Sys K)
    (hr : Run (paramsOf (initDecoder cfg) best covered) (sysOf (initDecoder cfg) [⟨i, w, k, .start⟩]) s)
    (t : PairLM.Task K) (ht : t ∈ s.tasks) (r : Cands K) (hd : t.pc = .done r) (y : Str) :
    weightOf r y * (total (best w k) + 1) = weightOf (best w k) y + weightOf e y / total e := by
  have he := (initDecoder_cache cfg hcfg).1 w e hc
  have h2 : (0 : K) < 1 / 2 := by norm_num
  have := C61_mixture (paramsOf (initDecoder cfg) best covered) ⟨(initDecoder cfg).cache, (initDecoder cfg).over⟩
    w k e hu hb hpos he hc ho (1 / 2) h2 (by norm_num) (by simp only [paramsOf, initDecoder_mix]; norm_num)
    i s hr t ht r hd y
  simp only [paramsOf] at this
  linarith

/-- C61: the configured mixture weight has no effect at all. -/
theorem C61_weight_ignored (cfg : Config K) (l : Option K) :
    initDecoder { cfg with translitWeight := l } = initDecoder cfg := by
  obtain ⟨model, lines, ov, tw, ac, mp⟩ := cfg
  by_cases h : lines = [] <;> cases model <;> cases tw <;> cases l <;>
    simp [initDecoder, initExternal, h]

end

/-! ## Concrete executions -/

namespace Exec

/-- External candidates: the word `[1]` becomes `[3]`. -/
def cfg (w : Option Rat) : Config Rat := ⟨true, [([1], [3], 1)], false, w, none, none⟩

/-- The model turns `[1]` into `[2]`. -/
def best : Str → Nat → Cands Rat := fun s _ => if s = [1] then [([2], 1)] else []

abbrev P : Params Rat := paramsOf (initDecoder (cfg none)) best fun _ => true

def tasks : List (PairLM.Task Rat) := [⟨0, [1], 5, .start⟩, ⟨0, [1], 5, .start⟩]

/-- The first word is finished before the second one is begun. -/
theorem serial : ∃ s, Run P (sysOf (initDecoder (cfg none)) tasks) s ∧
    s.tasks.map (·.pc) = [.done [([2], 1/2), ([3], 1/2)], .done [([2], 1/2), ([3], 1/2)]] := by
  have r0 : Run P (sysOf (initDecoder (cfg none)) tasks) _ := .nil
  have r1 := r0.snoc (Step.mk (a := []) rfl (TStep.enter rfl rfl))
  have r2 := r1.snoc (Step.mk (a := []) rfl TStep.init)
  have r3 := r2.snoc (Step.mk (a := []) rfl (TStep.decode rfl (by decide +kernel)))
  have r4 := r3.snoc (Step.mk (a := []) rfl (TStep.segment (by decide +kernel)))
  have r5 := r4.snoc (Step.mk (a := []) rfl TStep.joined)
  have r6 := r5.snoc (Step.mk (a := []) rfl (TStep.toMix rfl rfl))
  have r7 := r6.snoc (Step.mk (a := []) rfl (TStep.mix rfl rfl))
  have r8 := r7.snoc (Step.mk (a := [_]) rfl (TStep.skip rfl (by decide +kernel)))
  have r9 := r8.snoc (Step.mk (a := [_]) rfl (TStep.cached rfl (by decide +kernel) rfl))
  have r10 := r9.snoc (Step.mk (a := [_]) rfl (TStep.return_ rfl rfl))
  refine ⟨_, r10, ?_⟩
  exact congrArg₂ (fun a b => [PC.done a, PC.done b]) (by decide +kernel) (by decide +kernel)

/-- The second word is begun before the first one is finished. -/
theorem racing : ∃ s, Run P (sysOf (initDecoder (cfg none)) tasks) s ∧
    s.tasks.map (·.pc) = [.done [([2], 1/2), ([3], 1/2)], .done [([2], 3/4), ([3], 1/4)]] := by
  have r0 : Run P (sysOf (initDecoder (cfg none)) tasks) _ := .nil
  have r1 := r0.snoc (Step.mk (a := []) rfl (TStep.enter rfl rfl))
  have r2 := r1.snoc (Step.mk (a := []) rfl TStep.init)
  have r3 := r2.snoc (Step.mk (a := []) rfl (TStep.decode rfl (by decide +kernel)))
  have r4 := r3.snoc (Step.mk (a := []) rfl (TStep.segment (by decide +kernel)))
  have r5 := r4.snoc (Step.mk (a := []) rfl TStep.joined)
  have r6 := r5.snoc (Step.mk (a := []) rfl (TStep.toMix rfl rfl))
  have q1 := r6.snoc (Step.mk (a := [_]) rfl (TStep.skip rfl (by decide +kernel)))
  have q2 := q1.snoc (Step.mk (a := [_]) rfl (TStep.decode rfl (by decide +kernel)))
  have q3 := q2.snoc (Step.mk (a := [_]) rfl (TStep.segment (by decide +kernel)))
  have q4 := q3.snoc (Step.mk (a := [_]) rfl TStep.joined)
  have q5 := q4.snoc (Step.mk (a := [_]) rfl (TStep.toMix rfl rfl))
  have r7 := q5.snoc (Step.mk (a := []) rfl (TStep.mix rfl rfl))
  have r8 := r7.snoc (Step.mk (a := [_]) rfl (TStep.mix rfl rfl))
  refine ⟨_, r8, ?_⟩
  exact congrArg₂ (fun a b => [PC.done a, PC.done b]) (by decide +kernel) (by decide +kernel)

/-- A model whose results depend on how many are wanted. -/
def bestK : Str → Nat → Cands Rat := fun _ k => [([2], 1/2), ([3], 1/4)].take k

def noCfg : Config Rat := ⟨true, [], false, none, none, none⟩

abbrev Q : Params Rat := paramsOf (initDecoder noCfg) bestK fun _ => true

/-- The word `[1]` is transliterated with `k` = 1 first and then, in another line, with `k` = 2. -/
theorem afterOne : ∃ s, Run Q (sysOf (initDecoder noCfg) [⟨0, [1], 1, .start⟩, ⟨1, [1], 2, .start⟩]) s ∧
    s.tasks.map (·.pc) = [.done [([2], 1)], .done [([2], 1)]] := by
  have r0 : Run Q (sysOf (initDecoder noCfg) [⟨0, [1], 1, .start⟩, ⟨1, [1], 2, .start⟩]) _ := .nil
  have r1 := r0.snoc (Step.mk (a := []) rfl (TStep.enter rfl rfl))
  have r2 := r1.snoc (Step.mk (a := []) rfl TStep.init)
  have r3 := r2.snoc (Step.mk (a := []) rfl (TStep.decode rfl (by decide +kernel)))
  have r4 := r3.snoc (Step.mk (a := []) rfl (TStep.segment (by decide +kernel)))
  have r5 := r4.snoc (Step.mk (a := []) rfl TStep.joined)
  have r6 := r5.snoc (Step.mk (a := []) rfl (TStep.toMix rfl rfl))
  have r7 := r6.snoc (Step.mk (a := []) rfl (TStep.mix rfl rfl))
  have q1 := r7.snoc (Step.mk (a := [_]) rfl (TStep.enter rfl rfl))
  have q2 := q1.snoc (Step.mk (a := [_]) rfl TStep.init)
  have q3 := q2.snoc (Step.mk (a := [_]) rfl (TStep.cached rfl (by decide +kernel) rfl))
  have q4 := q3.snoc (Step.mk (a := [_]) rfl (TStep.return_ rfl rfl))
  refine ⟨_, q4, ?_⟩
  exact congrArg₂ (fun a b => [PC.done a, PC.done b]) (by decide +kernel) (by decide +kernel)

/-- The same word with `k` = 2 at once. -/
theorem atOnce : ∃ s, Run Q (sysOf (initDecoder noCfg) [⟨1, [1], 2, .start⟩]) s ∧
    s.tasks.map (·.pc) = [.done [([2], 2/3), ([3], 1/3)]] := by
  have r0 : Run Q (sysOf (initDecoder noCfg) [⟨1, [1], 2, .start⟩]) _ := .nil
  have r1 := r0.snoc (Step.mk (a := []) rfl (TStep.enter rfl rfl))
  have r2 := r1.snoc (Step.mk (a := []) rfl TStep.init)
  have r3 := r2.snoc (Step.mk (a := []) rfl (TStep.decode rfl (by decide +kernel)))
  have r4 := r3.snoc (Step.mk (a := []) rfl (TStep.segment (by decide +kernel)))
  have r5 := r4.snoc (Step.mk (a := []) rfl TStep.joined)
  have r6 := r5.snoc (Step.mk (a := []) rfl (TStep.toMix rfl rfl))
  have r7 := r6.snoc (Step.mk (a := []) rfl (TStep.mix rfl rfl))
  refine ⟨_, r7, ?_⟩
  exact congrArg (fun a => [PC.done a]) (by decide +kernel)

/-- One word with external candidates and mixture weight 3/4. -/
theorem weighted : ∃ s, Run (paramsOf (initDecoder (cfg (some (3/4)))) best fun _ => true)
      (sysOf (initDecoder (cfg (some (3/4)))) [⟨0, [1], 5, .start⟩]) s ∧
    s.tasks.map (·.pc) = [.done [([2], 1/2), ([3], 1/2)]] := by
  have r0 : Run (paramsOf (initDecoder (cfg (some (3/4)))) best fun _ => true)
      (sysOf (initDecoder (cfg (some (3/4)))) [⟨0, [1], 5, .start⟩]) _ := .nil
  have r1 := r0.snoc (Step.mk (a := []) rfl (TStep.enter rfl rfl))
  have r2 := r1.snoc (Step.mk (a := []) rfl TStep.init)
  have r3 := r2.snoc (Step.mk (a := []) rfl (TStep.decode rfl (by decide +kernel)))
  have r4 := r3.snoc (Step.mk (a := []) rfl (TStep.segment (by decide +kernel)))
  have r5 := r4.snoc (Step.mk (a := []) rfl TStep.joined)
  have r6 := r5.snoc (Step.mk (a := []) rfl (TStep.toMix rfl rfl))
  have r7 := r6.snoc (Step.mk (a := []) rfl (TStep.mix rfl rfl))
  refine ⟨_, r7, ?_⟩
  exact congrArg (fun a => [PC.done a]) (by decide +kernel)

end Exec

/-- C61: with mixture weight 3/4, a word that the model turns into `[2]` with probability 1 and the
external file into `[3]` with probability 1 should get 3/4 of the first; it gets a half. -/
theorem C61_violated : ∃ (cfg : Config Rat) (best : Str → Nat → Cands Rat) (s : Sys Rat) (r : Cands Rat),
    cfg.translitWeight = some (3/4) ∧ cfg.lines = [([1], [3], 1)] ∧ best [1] 5 = [([2], 1)] ∧
    Run (paramsOf (initDecoder cfg) best fun _ => true) (sysOf (initDecoder cfg) [⟨0, [1], 5, .start⟩]) s ∧
    s.tasks.map (·.pc) = [.done r] ∧ weightOf r [2] = 1/2 := by
  obtain ⟨s, h1, h2⟩ := Exec.weighted
  exact ⟨Exec.cfg (some (3/4)), Exec.best, s, _, rfl, rfl, rfl, h1, h2, by decide +kernel⟩

/-- C64: without override the results depend on the order of the threads. -/
theorem C64_race : ∃ (cfg : Config Rat) (best : Str → Nat → Cands Rat) (tasks : List (PairLM.Task Rat))
    (s1 s2 : Sys Rat) (r1 r2 : List (Cands Rat)),
    (∀ t ∈ tasks, t.k = 5 ∧ t.pc = .start) ∧
    Run (paramsOf (initDecoder cfg) best fun _ => true) (sysOf (initDecoder cfg) tasks) s1 ∧
    Run (paramsOf (initDecoder cfg) best fun _ => true) (sysOf (initDecoder cfg) tasks) s2 ∧
    s1.tasks.map (·.pc) = r1.map .done ∧ s2.tasks.map (·.pc) = r2.map .done ∧
    ∃ (i : Nat) (c1 c2 : Cands Rat), r1[i]? = some c1 ∧ r2[i]? = some c2 ∧ weightOf c1 [2] ≠ weightOf c2 [2] := by
  obtain ⟨s1, h1, h1'⟩ := Exec.serial
  obtain ⟨s2, h2, h2'⟩ := Exec.racing
  refine ⟨Exec.cfg none, Exec.best, Exec.tasks, s1, s2,
    [[([2], 1/2), ([3], 1/2)], [([2], 1/2), ([3], 1/2)]],
    [[([2], 1/2), ([3], 1/2)], [([2], 3/4), ([3], 1/4)]], ?_, h1, h2, h1', h2',
    1, [([2], 1/2), ([3], 1/2)], [([2], 3/4), ([3], 1/4)], rfl, rfl, by decide +kernel⟩
  intro t ht
  simp only [Exec.tasks, List.mem_cons, List.not_mem_nil, or_false, or_self] at ht
  subst ht
  exact ⟨rfl, rfl⟩

/-- C66: what a word gets for `k` depends on the calls made before with another `k`. -/
theorem C66_earlier_k : ∃ (cfg : Config Rat) (best : Str → Nat → Cands Rat) (s1 s2 : Sys Rat)
    (r0 r1 r2 : Cands Rat),
    Run (paramsOf (initDecoder cfg) best fun _ => true) (sysOf (initDecoder cfg) [⟨1, [1], 2, .start⟩]) s1 ∧
    s1.tasks.map (·.pc) = [.done r1] ∧
    Run (paramsOf (initDecoder cfg) best fun _ => true)
      (sysOf (initDecoder cfg) [⟨0, [1], 1, .start⟩, ⟨1, [1], 2, .start⟩]) s2 ∧
    s2.tasks.map (·.pc) = [.done r0, .done r2] ∧ r1.length = 2 ∧ r2.length = 1 := by
  obtain ⟨s1, h1, h1'⟩ := Exec.atOnce
  obtain ⟨s2, h2, h2'⟩ := Exec.afterOne
  exact ⟨Exec.noCfg, Exec.bestK, s1, s2, _, _, _, h1, h1', h2, h2', rfl, rfl⟩

/-! ## Thread pools without workers -/

theorem none_finish {ops : List ThreadPool.Op} (hw : .spawn ∉ ops) {tr : List ThreadPool.Event}
    {s : ThreadPool.State} (h : ThreadPool.Exec (ThreadPool.initial ops) tr s) :
    finishedIn tr = [] := by
  suffices s.workers = [] ∧ .spawn ∉ s.ops ∧ finishedIn tr = [] from this.2.2
  generalize hi : ThreadPool.initial ops = s0 at h
  induction h with
  | nil => subst hi; exact ⟨rfl, hw, rfl⟩
  | snoc _ hs ih =>
    obtain ⟨h1, h2, h3⟩ := ih
    cases hs <;> simp_all [finishedIn]

/-- The results in `translit_fsts` after the pool of `BuildTransliterationFst` is gone: `f i` if the
task of word `i` ran. -/
def wordResults {K : Type} (f : Nat → Cands K) (n : Nat) (ran : List ThreadPool.Task) :
    List (Option (Cands K)) :=
  (List.range n).map fun i =>
    if ran.any (fun t => match t with | .mk j _ => j == i) then some (f i) else none

/-- C64: no word of a line is ever transliterated, because the workers of the pool are never started;
a line with a word has no result. -/
theorem C64_never_started {K : Type} (f : Nat → Cands K) (n : Nat) (hn : 0 < n)
    (tr : List ThreadPool.Event) (s : ThreadPool.State)
    (h : ThreadPool.Exec (ThreadPool.initial (buildOps n)) tr s) :
    begunIn tr = [] ∧ joinLattice (wordResults f n (finishedIn tr)) = none := by
  have hw : ThreadPool.Op.spawn ∉ buildOps n := by simp [buildOps]
  refine ⟨C38_not_started _ hw tr s h, ?_⟩
  rw [none_finish hw h]
  cases n with
  | zero => omega
  | succ n => simp [wordResults, List.range_succ_eq_map, joinLattice]

/-! ## C65 -/

theorem insertIndex_perm (p : Str × Nat) : ∀ l, (insertIndex p l).Perm (p :: l)
  | [] => .refl _
  | q :: l => by
    unfold insertIndex
    split
    · exact .refl _
    · exact ((insertIndex_perm p l).cons q).trans (.swap ..)

theorem sortIndex_perm : ∀ l, (sortIndex l).Perm l
  | [] => .refl _
  | p :: l => (insertIndex_perm p _).trans ((sortIndex_perm l).cons p)

theorem insertIndex_sorted (p : Str × Nat) : ∀ {l}, l.Pairwise (fun a b : Str × Nat => a.2 ≤ b.2) →
    (insertIndex p l).Pairwise (fun a b => a.2 ≤ b.2)
  | [], _ => by simp [insertIndex]
  | q :: l, h => by
    have h' := List.pairwise_cons.1 h
    unfold insertIndex
    split
    · rename_i hq
      refine List.pairwise_cons.2 ⟨fun x hx => ?_, h⟩
      rcases List.mem_cons.1 hx with rfl | hx
      · exact hq
      · exact hq.trans (h'.1 x hx)
    · rename_i hq
      refine List.pairwise_cons.2 ⟨fun x hx => ?_, insertIndex_sorted p h'.2⟩
      rcases List.mem_cons.1 ((insertIndex_perm p l).mem_iff.1 hx) with rfl | hx
      · omega
      · exact h'.1 x hx

theorem sortIndex_sorted : ∀ l, (sortIndex l).Pairwise (fun a b => a.2 ≤ b.2)
  | [] => .nil
  | p :: l => insertIndex_sorted p (sortIndex_sorted l)

/-- A list whose indices increase is what any permutation of it is sorted to. -/
theorem sortIndex_eq {l m : List (Str × Nat)} (hp : l.Perm m)
    (hm : m.Pairwise (fun a b => a.2 < b.2)) : sortIndex l = m := by
  have h1 := (sortIndex_perm l).trans hp
  have h2 := sortIndex_sorted l
  generalize sortIndex l = n at h1 h2
  clear hp l
  induction m generalizing n with
  | nil => simpa using h1
  | cons p m ih =>
    have hm' := List.pairwise_cons.1 hm
    cases n with
    | nil => simp at h1
    | cons q n =>
      have h2' := List.pairwise_cons.1 h2
      have e : q = p := by
        rcases List.mem_cons.1 (h1.mem_iff.1 (by simp : q ∈ q :: n)) with h | h
        · exact h
        · have hlt := hm'.1 q h
          rcases List.mem_cons.1 (h1.mem_iff.2 (by simp : p ∈ p :: m)) with h' | h'
          · exact h'.symm
          · have := h2'.1 p h'
            omega
      subst e
      rw [ih hm'.2 n (List.Perm.cons_inv h1) h2'.2]

/-- Tasks that schedule nothing: what is scheduled is what the owner scheduled. -/
theorem scheduled_owner {ops : List ThreadPool.Op} (hs : ∀ t ∈ ownerTasks ops, t.spawns = [])
    {tr : List ThreadPool.Event} {s : ThreadPool.State}
    (h : ThreadPool.Exec (ThreadPool.initial ops) tr s) :
    scheduledIn tr ++ ownerTasks s.ops = ownerTasks ops := by
  suffices (scheduledIn tr ++ ownerTasks s.ops = ownerTasks ops) ∧
      (∀ t, some t ∈ s.queue → t.spawns = []) ∧ (∀ t r, ThreadPool.Worker.running t r ∈ s.workers → r = []) from
    this.1
  generalize hi : ThreadPool.initial ops = s0 at h
  induction h with
  | nil =>
    subst hi
    exact ⟨rfl, by simp [ThreadPool.initial], by simp [ThreadPool.initial]⟩
  | snoc _ hst ih =>
    obtain ⟨h1, h2, h3⟩ := ih
    cases hst with
    | schedule =>
      refine ⟨?_, ?_, h3⟩
      · rw [← h1]
        simp [scheduledIn, ownerTasks]
      · intro t ht
        rcases List.mem_append.1 ht with ht | ht
        · exact h2 t ht
        · simp only [List.mem_singleton, Option.some.injEq] at ht
          subst ht
          refine hs _ ?_
          rw [← h1]
          simp [ownerTasks]
    | spawn =>
      refine ⟨?_, h2, ?_⟩
      · rw [← h1]
        simp [scheduledIn, ownerTasks]
      · intro t r ht
        simp only [List.mem_append, List.mem_singleton, reduceCtorEq, or_false] at ht
        exact h3 t r ht
    | shutdown =>
      refine ⟨by rw [← h1]; simp [scheduledIn], ?_, h3⟩
      intro t ht
      rcases List.mem_append.1 ht with ht | ht
      · exact h2 t ht
      · simp [List.mem_replicate] at ht
    | join _ => exact ⟨by rw [← h1]; simp [scheduledIn], h2, h3⟩
    | return_ => exact ⟨by rw [← h1]; simp [scheduledIn], h2, h3⟩
    | begin =>
      refine ⟨by rw [← h1]; simp [scheduledIn], fun t ht => h2 t (List.mem_cons_of_mem _ ht), ?_⟩
      intro t r ht
      simp only [List.mem_append, List.mem_cons, ThreadPool.Worker.running.injEq] at ht
      rcases ht with ht | ⟨rfl, rfl⟩ | ht
      · exact h3 t r (by simp [ht])
      · exact h2 _ (by simp)
      · exact h3 t r (by simp [ht])
    | stop =>
      refine ⟨by rw [← h1]; simp [scheduledIn], fun t ht => h2 t (List.mem_cons_of_mem _ ht), ?_⟩
      intro t r ht
      simp only [List.mem_append, List.mem_cons, reduceCtorEq, false_or] at ht
      exact h3 t r (by rcases ht with h | h <;> simp [h])
    | work =>
      exfalso
      have := h3 _ _ (List.mem_append_right _ List.mem_cons_self)
      simp at this
    | finish =>
      refine ⟨by rw [← h1]; simp [scheduledIn], h2, ?_⟩
      intro t r ht
      simp only [List.mem_append, List.mem_cons, reduceCtorEq, false_or] at ht
      exact h3 t r (by rcases ht with h | h <;> simp [h])

theorem ownerTasks_parallel (n : Nat) (lines : List Str) :
    ownerTasks (ThreadPool.startWorkers n ++ parallelOps lines) =
      (numbered lines).map fun p => .mk p.2 [] := by
  have h1 : ownerTasks (ThreadPool.startWorkers n) = [] := by
    simp [ownerTasks, ThreadPool.startWorkers, List.filterMap_replicate]
  have h2 : ownerTasks (parallelOps lines) = (numbered lines).map fun p => .mk p.2 [] := by
    simp [ownerTasks, parallelOps, List.filterMap_map, Function.comp_def]
  rw [← h2]
  simp only [ownerTasks, List.filterMap_append] at h1 ⊢
  rw [h1, List.nil_append]

/-- C65: if the workers were started, the parallel runner would write on every execution, whatever
the order in which lines are finished, what the sequential one writes. -/
theorem C65_parallel_partial (f : Nat → Str → Str) (lines : List Str) (n : Nat) (hn : 0 < n)
    (tr : List ThreadPool.Event) (s : ThreadPool.State)
    (h : ThreadPool.Exec (ThreadPool.initial (ThreadPool.startWorkers n ++ parallelOps lines)) tr s)
    (hr : s.phase = .returned) :
    writeSorted (parallelOutputs f lines (finishedIn tr)) = sequentialOutput f lines := by
  have hspawn : ThreadPool.Op.spawn ∈ ThreadPool.startWorkers n ++ parallelOps lines := by
    refine List.mem_append_left _ ?_
    simp [ThreadPool.startWorkers, List.mem_replicate]
    omega
  obtain ⟨tr1, m, tr2, late, rfl, _, _, h1, h2, _, h3⟩ := C38_all_executed _ hspawn tr s h hr
  have h4 := scheduled_owner (by
    intro t ht
    rw [ownerTasks_parallel] at ht
    obtain ⟨p, _, rfl⟩ := List.mem_map.1 ht
    rfl) h
  have h5 : scheduledIn (tr1 ++ .shutdown m :: tr2) = scheduledIn tr1 ++ scheduledIn tr2 := by
    simp [scheduledIn]
  rw [h5] at h4
  have hlen := congrArg List.length h4
  have hle := h1.length_le
  simp only [List.length_append] at hlen
  have e2 : scheduledIn tr2 = [] := List.length_eq_zero_iff.1 (by omega)
  have e1 : scheduledIn tr1 = ownerTasks (ThreadPool.startWorkers n ++ parallelOps lines) :=
    (h1.eq_of_length (by omega)).symm
  rw [e2, List.prefix_nil] at h2
  rw [h2, List.append_nil, e1, ownerTasks_parallel] at h3
  have hnum : ∀ p ∈ numbered lines, (numbered lines)[p.2]? = some p := by
    intro p hp
    unfold numbered at hp ⊢
    have := List.mem_zipIdx_iff_getElem?.1 hp
    rw [List.getElem?_zipIdx, this]
    simp
  have hperm : (parallelOutputs f lines (finishedIn (tr1 ++ .shutdown m :: tr2))).Perm
      ((numbered lines).map fun p => (f p.2 p.1, p.2)) := by
    refine (h3.filterMap _).trans ?_
    rw [List.filterMap_map]
    refine List.Perm.of_eq ?_
    rw [← List.filterMap_eq_map]
    refine List.filterMap_congr fun p hp => ?_
    simp [hnum p hp]
  unfold writeSorted sequentialOutput
  rw [sortIndex_eq hperm]
  · simp [List.flatMap_map]
  · rw [List.pairwise_map]
    have : ((numbered lines).map (·.2)).Pairwise (· < ·) := by
      unfold numbered
      rw [List.zipIdx_map_snd]
      exact List.pairwise_lt_range'
    exact List.pairwise_map.1 this

/-- C65: with more than one worker nothing is written, whatever the input, because the workers are
never started. -/
theorem C65_nothing_written (f : Nat → Str → Str) (lines : List Str)
    (tr : List ThreadPool.Event) (s : ThreadPool.State)
    (h : ThreadPool.Exec (ThreadPool.initial (parallelOps lines)) tr s) :
    writeSorted (parallelOutputs f lines (finishedIn tr)) = [] := by
  have hw : ThreadPool.Op.spawn ∉ parallelOps lines := by simp [parallelOps]
  rw [none_finish hw h]
  rfl

/-- C65: the sequential runner numbers the lines that are no comments from 0 and writes their results
in order. -/
theorem C65_sequential (f : Nat → Str → Str) (lines : List Str) :
    sequentialOutput f lines =
      ((List.range (lines.filter fun l => l.head? ≠ some 35).length).map fun i =>
        f i ((lines.filter fun l => l.head? ≠ some 35)[i]?.getD [])).flatten := by
  unfold sequentialOutput numbered
  generalize (lines.filter fun l => l.head? ≠ some 35) = ls
  rw [List.flatMap_def]
  congr 1
  apply List.ext_getElem?
  intro i
  by_cases hi : i < ls.length
  · simp [hi]
  · simp [hi]

example : sequentialOutput (fun i l => i :: l) [[1, 2], [35, 1], [3]] = [0, 1, 2, 1, 3] := by decide

/-! ## The hypotheses are met -/

/-- C64: a decoder without external candidates, one word, `k` = 2. -/
example : ∃ s, Run Exec.Q (sysOf (initDecoder Exec.noCfg) [⟨1, [1], 2, .start⟩]) s ∧
    (∃ t ∈ s.tasks, t.pc = .done [([2], 2/3), ([3], 1/3)]) ∧
    ∀ t ∈ s.tasks, ∀ r, t.pc = .done r → Expected Exec.Q (initDecoder Exec.noCfg).cache 2 t.word r := by
  obtain ⟨s, h1, h2⟩ := Exec.atOnce
  refine ⟨s, h1, ?_, (C64_interleaving_partial Exec.noCfg (by simp [Exec.noCfg]) (.inr rfl) Exec.bestK _ 2
    (by decide) ?_ _ ?_ s h1).2⟩
  · obtain ⟨t, ht⟩ := List.length_eq_one_iff.1 (by simpa using congrArg List.length h2)
    rw [ht] at h2 ⊢
    exact ⟨t, by simp, by simpa using h2⟩
  · intro _ p hp
    have : p = ([2], 1/2) ∨ p = ([3], 1/4) := by simpa [Exec.bestK] using hp
    rcases this with rfl | rfl <;> norm_num
  · intro t ht
    rw [List.mem_singleton.1 ht]
    exact ⟨rfl, rfl⟩

/-- C64: a decoder whose external candidates override. -/
example (best : Str → Nat → Cands Rat) (hb : ∀ s, ∀ p ∈ best s 3, 0 < p.2) (s : Sys Rat)
    (h : Run (paramsOf (initDecoder ⟨true, [([1], [3], 1)], true, none, none, none⟩) best fun _ => true)
      (sysOf (initDecoder ⟨true, [([1], [3], 1)], true, none, none, none⟩)
        [⟨0, [1], 3, .start⟩, ⟨0, [7], 3, .start⟩, ⟨1, [1], 3, .start⟩]) s) :
    ∀ t ∈ s.tasks, ∀ r, t.pc = .done r → t.word = [1] → weightOf r [3] = 1 := by
  intro t ht r hr hw
  have := (C64_interleaving_partial _ (by simp) (.inl rfl) best _ 3 (by decide) hb _ (by
    intro t ht
    simp only [List.mem_cons, List.not_mem_nil, or_false] at ht
    rcases ht with rfl | rfl | rfl <;> exact ⟨rfl, rfl⟩) s h).2 t ht r hr
  rw [hw] at this
  have h2 := (this.1 [([3], 1)] rfl).weight [3]
  have h3 : total ([([3], 1)] : Cands Rat) = 1 := by decide +kernel
  have h4 : weightOf ([([3], 1)] : Cands Rat) [3] = 1 := by decide +kernel
  rwa [h3, h4, mul_one] at h2

/-- C61: the word of `Exec.weighted`. -/
example : ∃ s, Run Exec.P (sysOf (initDecoder (Exec.cfg none)) [⟨0, [1], 5, .start⟩]) s ∧
    ∀ t ∈ s.tasks, ∀ r, t.pc = .done r → weightOf r [2] * (1 + 1) = 1 + 0 := by
  obtain ⟨s, h1, h2⟩ := Exec.weighted
  refine ⟨s, h1, fun t ht r hr => ?_⟩
  have := C61_half_partial (Exec.cfg none) (by simp [Exec.cfg]) Exec.best (fun _ => true) [1] 5 [([3], 1)]
    ⟨true, by simp⟩ (by decide) (by simp [Exec.best]) rfl rfl 0 s h1 t ht r hr [2]
  have e1 : total (Exec.best [1] 5) = 1 := by decide +kernel
  have e2 : weightOf (Exec.best [1] 5) [2] = 1 := by decide +kernel
  have e3 : weightOf ([([3], 1)] : Cands Rat) [2] / total ([([3], 1)] : Cands Rat) = 0 := by decide +kernel
  rwa [e1, e2, e3] at this

/-- C61: the last line for a pair counts. -/
example : (initDecoder (⟨true, [([1], [3], 1), ([1], [4], 2), ([2], [3], 1), ([1], [3], 5)], false,
    none, none, none⟩ : Config Rat)).cache [1] = some [([3], 5), ([4], 2)] := by decide +kernel

/-- C65: one line and one worker. -/
example : ∃ tr s, ThreadPool.Exec (ThreadPool.initial (ThreadPool.startWorkers 1 ++ parallelOps [[5]])) tr s ∧
    s.phase = .returned ∧ finishedIn tr = [.mk 0 []] := by
  have e0 : ThreadPool.Exec (ThreadPool.initial (ThreadPool.startWorkers 1 ++ parallelOps [[5]])) [] _ := .nil
  have e1 := e0.snoc .spawn
  have e2 := e1.snoc .schedule
  have e3 := e2.snoc (.begin (a := []))
  have e4 := e3.snoc (.finish (a := []))
  have e5 := e4.snoc .shutdown
  have e6 := e5.snoc (.stop (a := []))
  have e7 := e6.snoc (.join rfl)
  have e8 := e7.snoc (.return_ (ws := [.stopped]))
  exact ⟨_, _, e8, rfl, rfl⟩

end Nisaba.Props
