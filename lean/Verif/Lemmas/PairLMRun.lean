import Verif.Lemmas.PairLM
/-!
# Invariant of concurrent transliteration
-/
set_option linter.unusedSectionVars false
namespace Nisaba.PairLM
variable {K : Type} [Field K] [LinearOrder K]

/-! ## Segments -/

/-- All characters are covered, or none is. -/
def Uniform (covered : Nat → Bool) (w : Str) : Prop := ∃ b, ∀ c ∈ w, covered c = b

theorem segmentCovered_uniform {covered : Nat → Bool} {w : Str} (h : Uniform covered w) :
    segmentCovered covered w = [] := by
  match w with
  | [] => rfl
  | c :: cs =>
    obtain ⟨b, hb⟩ := h
    unfold segmentCovered
    simp only
    rw [if_pos]
    cases b with
    | true => left; rw [List.filter_eq_nil_iff.2]; rfl; intro x hx; simp [hb x hx]
    | false => right; rw [List.filter_eq_self.2]; intro x hx; simp [hb x hx]

theorem segmentLoop_uniform {covered : Nat → Bool} : ∀ (cs tok : Str) (last : Bool),
    (∀ c ∈ tok, covered c = last) → ∀ s ∈ segmentLoop covered tok last cs, Uniform covered s
  | [], tok, last, h, s, hs => by
    simp only [segmentLoop, List.mem_singleton] at hs
    exact hs ▸ ⟨last, h⟩
  | c :: cs, tok, last, h, s, hs => by
    unfold segmentLoop at hs
    split at hs
    · rcases List.mem_cons.1 hs with rfl | hs
      · exact ⟨last, h⟩
      · exact segmentLoop_uniform cs [c] _ (by simp) s hs
    · rename_i e
      have e : covered c = last := by simpa using e
      refine segmentLoop_uniform cs _ _ ?_ s hs
      intro x hx
      rcases List.mem_append.1 hx with hx | hx
      · rw [h x hx, e]
      · rw [List.mem_singleton.1 hx]

theorem segmentCovered_mem {covered : Nat → Bool} {w s : Str} (h : s ∈ segmentCovered covered w) :
    Uniform covered s := by
  match w with
  | [] => simp [segmentCovered] at h
  | c :: cs =>
    unfold segmentCovered at h
    simp only at h
    split at h
    · simp at h
    · exact segmentLoop_uniform _ _ _ (by simp) s h

theorem segmentsOf_mem {P : Params K} {w s : Str} (h : s ∈ (segmentsOf P w).1) :
    segmentsOf P s = ([s], false) := by
  have h0 : segmentsOf P w = ([w], false) ∨ (segmentsOf P w).1 = segmentCovered P.covered w := by
    unfold segmentsOf
    simp only
    split
    · exact .inr rfl
    · exact .inl rfl
  rcases h0 with e | e
  · rw [e, List.mem_singleton] at h
    subst h
    exact e
  · rw [e] at h
    unfold segmentsOf
    rw [segmentCovered_uniform (segmentCovered_mem h)]
    rfl

theorem segmentsOf_ne_nil {P : Params K} {w : Str} : (segmentsOf P w).1 ≠ [] := by
  unfold segmentsOf
  simp only
  split
  · rename_i h
    intro e
    simp only at e
    rw [e] at h
    simp at h
  · simp

theorem segmentsOf_false {P : Params K} {w : Str} (h : (segmentsOf P w).2 = false) :
    (segmentsOf P w).1 = [w] := by
  unfold segmentsOf at h ⊢
  simp only at h ⊢
  split at h
  · simp at h
  · rename_i e
    rw [if_neg e]

/-! ## Expected results -/

/-- What a segment gets, given the external candidates. -/
def segResult (P : Params K) (E : Str → Option (Cands K)) (k : Nat) (s : Str) : Cands K :=
  if P.best s k ≠ [] then P.best s k
  else match E s with
    | some e => push e
    | none => [(s, 1)]

/-- Candidates of a word by the model. -/
def wordResult (P : Params K) (E : Str → Option (Cands K)) (k : Nat) (w : Str) : Cands K :=
  joinSegments k (segmentsOf P w).2 ((segmentsOf P w).1.map (segResult P E k))

/-- What a word gets. -/
def result (P : Params K) (E : Str → Option (Cands K)) (k : Nat) (w : Str) : Cands K :=
  match E w with
  | some e => push e
  | none => push (wordResult P E k w)

/-! ## Proper candidate lists -/

section
variable [IsStrictOrderedRing K]

theorem Proper.concatAll : ∀ {cs : List (Cands K)}, (∀ c ∈ cs, Proper c) → Proper (concatAll cs)
  | [], _ => ⟨by simp [PairLM.concatAll], by simp [PairLM.concatAll]⟩
  | c :: cs, h => by
    have h1 := h c (by simp)
    have h2 := Proper.concatAll (cs := cs) fun d hd => h d (List.mem_cons_of_mem _ hd)
    constructor
    · intro e
      match c, h1.1 with
      | p :: c, _ =>
        simp only [PairLM.concatAll, List.flatMap_cons, List.append_eq_nil_iff, List.map_eq_nil_iff] at e
        exact h2.1 e.1
    · intro p hp
      simp only [PairLM.concatAll, List.mem_flatMap, List.mem_map] at hp
      obtain ⟨a, ha, b, hb, rfl⟩ := hp
      exact mul_pos (h1.2 a ha) (h2.2 b hb)

omit [IsStrictOrderedRing K] [Field K] in
theorem insertDesc_perm (p : Str × K) : ∀ l : Cands K, (insertDesc p l).Perm (p :: l)
  | [] => .refl _
  | q :: l => by
    unfold insertDesc
    split
    · exact .refl _
    · exact ((insertDesc_perm p l).cons q).trans (.swap ..)

omit [IsStrictOrderedRing K] [Field K] in
theorem sortDesc_perm : ∀ l : Cands K, (sortDesc l).Perm l
  | [] => .refl _
  | p :: l => (insertDesc_perm p _).trans ((sortDesc_perm l).cons p)

theorem Proper.concatBest {k : Nat} (hk : 0 < k) {cs : List (Cands K)} (h : ∀ c ∈ cs, Proper c) :
    Proper (concatBest k cs) := by
  have hp := Proper.concatAll h
  have hs := sortDesc_perm (PairLM.concatAll cs)
  constructor
  · intro e
    rw [PairLM.concatBest, List.take_eq_nil_iff] at e
    rcases e with e | e
    · omega
    · rw [e] at hs
      exact hp.1 hs.nil_eq.symm
  · intro p hp'
    exact hp.2 p (hs.mem_iff.1 (List.mem_of_mem_take hp'))

/-- Assumptions on the model and on the external candidates: weights are positive, and external
candidates override. -/
structure Good (P : Params K) (E : Str → Option (Cands K)) (k : Nat) : Prop where
  kpos : 0 < k
  mix : 0 < P.mix
  best : ∀ s, ∀ p ∈ P.best s k, 0 < p.2
  ext : ∀ w e, E w = some e → Proper e

variable {P : Params K} {E : Str → Option (Cands K)} {ov : Str → Bool} {k : Nat}

theorem Good.segResult (h : Good P E k) (s : Str) : Proper (segResult P E k s) := by
  unfold PairLM.segResult
  split
  · rename_i hb
    exact ⟨hb, h.best s⟩
  · split
    · rename_i e he
      exact (h.ext s e he).push
    · exact ⟨by simp, by simp⟩

theorem Good.wordResult (h : Good P E k) (w : Str) : Proper (wordResult P E k w) := by
  have hall : ∀ c ∈ (segmentsOf P w).1.map (PairLM.segResult P E k), Proper c := by
    intro c hc
    obtain ⟨s, _, rfl⟩ := List.mem_map.1 hc
    exact h.segResult s
  unfold PairLM.wordResult joinSegments
  split
  · exact Proper.concatBest h.kpos hall
  · have hne := segmentsOf_ne_nil (P := P) (w := w)
    match e : (segmentsOf P w).1, hne with
    | s :: l, _ => exact h.segResult s

theorem Good.result (h : Good P E k) (w : Str) : Proper (result P E k w) := by
  unfold PairLM.result
  split
  · rename_i e he
    exact (h.ext w e he).push
  · exact (h.wordResult w).push

theorem Good.push_result (h : Good P E k) (w : Str) :
    PairLM.push (PairLM.result P E k w) = PairLM.result P E k w := by
  unfold PairLM.result
  split
  · rename_i e he
    exact push_push (h.ext w e he).total_pos.ne'
  · exact push_push (h.wordResult w).total_pos.ne'

theorem result_nodup (w : Str) : ((result P E k w).map (·.1)).Nodup := by
  unfold PairLM.result
  split <;> (rw [keys_push]; exact firsts_nodup _)

/-! ## Invariant -/

/-- The thread is about to initialize a word of line `i`. -/
def Task.isInit (i : Nat) (t : Task K) : Bool :=
  match t.pc with
  | .initializing _ => decide (t.ctx = i)
  | _ => false

/-- What is known of a thread in its context. -/
def TaskOk (P : Params K) (E : Str → Option (Cands K)) (k : Nat) (g : Global K) (c : Ctx K)
    (t : Task K) : Prop :=
  t.k = k ∧
  match t.pc with
  | .start => True
  | .initializing o => c.loc t.word = none ∧ c.held = true ∧ (o = true → g.over t.word = true) ∧
      (E t.word ≠ none → o = true)
  | .ready => c.loc t.word ≠ none
  | .decoding ds rest b => c.loc t.word ≠ none ∧ b = (segmentsOf P t.word).2 ∧
      ∃ l, (segmentsOf P t.word).1 = l ++ rest ∧ ds = l.map (segResult P E k)
  | .decoded r => c.loc t.word ≠ none ∧ r = wordResult P E k t.word
  | .mixing r => c.loc t.word ≠ none ∧ r = wordResult P E k t.word ∧ E t.word = none
  | .returning => c.loc t.word = some (result P E k t.word)
  | .done r => r = result P E k t.word

/-- What is known of a line. -/
structure CtxOk (P : Params K) (E : Str → Option (Cands K)) (k : Nat) (c : Ctx K) : Prop where
  loc : ∀ w, c.loc w = none ∨ c.loc w = some [] ∨ c.loc w = some (result P E k w)
  mixed : ∀ w, c.mixed w = true → c.loc w = some (result P E k w)
  ext : ∀ w, E w ≠ none → c.loc w ≠ none → c.mixed w = true

/-- What is known of the shared cache. -/
structure GlobOk (P : Params K) (E : Str → Option (Cands K)) (k : Nat) (g : Global K) : Prop where
  cache : ∀ w, g.cache w = E w ∨ (E w = none ∧ g.cache w = some (result P E k w))
  over : ∀ w, g.over w = true → g.cache w ≠ none
  ext : ∀ w, E w ≠ none → g.over w = true

structure Inv (P : Params K) (E : Str → Option (Cands K)) (k : Nat) (s : Sys K) : Prop where
  glob : GlobOk P E k s.glob
  ctx : ∀ i, CtxOk P E k (s.ctxs i)
  held : ∀ i, (s.tasks.filter (·.isInit i)).length = if (s.ctxs i).held then 1 else 0
  task : ∀ t ∈ s.tasks, TaskOk P E k s.glob (s.ctxs t.ctx) t

/-- The cached candidates of a word, normalised. -/
theorem GlobOk.push (hG : Good P E k) {g : Global K} (h : GlobOk P E k g) {w : Str} {e : Cands K}
    (he : g.cache w = some e) : PairLM.push e = result P E k w := by
  rcases h.cache w with h' | ⟨_, h'⟩
  · rw [he] at h'
    unfold PairLM.result
    rw [← h']
  · rw [he] at h'
    cases h'
    exact hG.push_result w

/-- A segment that the model cannot transliterate. -/
theorem GlobOk.segment (hG : Good P E k) {g : Global K} (h : GlobOk P E k g) {s w : Str}
    (hs : s ∈ (segmentsOf P w).1) (hb : P.best s k = []) {e : Cands K}
    (he : g.cache s = some e) : PairLM.push e = segResult P E k s := by
  rw [h.push hG he]
  unfold PairLM.result PairLM.segResult
  rw [if_neg (by simp [hb])]
  cases hE : E s with
  | some e => rfl
  | none =>
    simp only
    unfold PairLM.wordResult joinSegments
    rw [segmentsOf_mem hs]
    simp [PairLM.segResult, hb, hE, PairLM.push, firsts, weightOf, total]

/-- Threads of a line in which words are added. -/
theorem TaskOk.mono {g g' : Global K} {c c' : Ctx K} {t : Task K} (h : TaskOk P E k g c t)
    (hg : ∀ w, g.over w = true → g'.over w = true)
    (h1 : ∀ w, c.loc w ≠ none → c'.loc w ≠ none)
    (h2 : ∀ w, c.loc w = some (result P E k w) → c'.loc w = some (result P E k w))
    (h3 : c.held = true → c'.held = true ∧ c'.loc = c.loc) :
    TaskOk P E k g' c' t := by
  obtain ⟨i, w, k', pc⟩ := t
  refine ⟨h.1, ?_⟩
  have h := h.2
  cases pc <;> simp only at h ⊢
  · exact ⟨by rw [(h3 h.2.1).2]; exact h.1, (h3 h.2.1).1, fun e => hg _ (h.2.2.1 e), h.2.2.2⟩
  · exact h1 _ h
  · exact ⟨h1 _ h.1, h.2⟩
  · exact ⟨h1 _ h.1, h.2⟩
  · exact ⟨h1 _ h.1, h.2⟩
  · exact h2 _ h
  · exact h

theorem filter_isInit_middle (i : Nat) (a b : List (Task K)) (t : Task K) :
    ((a ++ t :: b).filter (·.isInit i)).length =
      (a.filter (·.isInit i)).length + (b.filter (·.isInit i)).length + (if t.isInit i then 1 else 0) := by
  rw [List.filter_append, List.filter_cons]
  cases h : t.isInit i <;> simp <;> omega

/-- Local facts about a step. -/
theorem TStep.ok (hG : Good P E k) {g g' : Global K} {c c' : Ctx K} {t t' : Task K}
    (hg : GlobOk P E k g) (hc : CtxOk P E k c) (ht : TaskOk P E k g c t)
    (h : TStep P g c t g' c' t') :
    GlobOk P E k g' ∧ CtxOk P E k c' ∧ TaskOk P E k g' c' t' ∧ t'.ctx = t.ctx ∧
    (∀ w, g.over w = true → g'.over w = true) ∧
    (∀ w, c.loc w ≠ none → c'.loc w ≠ none) ∧
    (∀ w, c.loc w = some (result P E k w) → c'.loc w = some (result P E k w)) ∧
    (c.held = true → (c'.held = true ∧ c'.loc = c.loc) ∨ (t.isInit t.ctx = true)) ∧
    (if c'.held then 1 else 0) + (if t.isInit t.ctx then 1 else 0) =
      (if c.held then 1 else 0) + (if t'.isInit t.ctx then 1 else 0) := by
  obtain ⟨hk, ht⟩ := ht
  -- adding a finished word
  have hset : ∀ w, CtxOk P E k (c.set w (result P E k w) true) := by
    intro w
    refine ⟨fun v => ?_, fun v hv => ?_, fun v hE hv => ?_⟩
    · by_cases e : v = w
      · subst e; exact .inr (.inr (by simp [Ctx.set]))
      · simpa [Ctx.set, e] using hc.loc v
    · by_cases e : v = w
      · subst e; simp [Ctx.set]
      · simp only [Ctx.set, e, if_false] at hv ⊢
        exact hc.mixed v hv
    · by_cases e : v = w
      · subst e; simp [Ctx.set]
      · simp only [Ctx.set, e, if_false] at hv ⊢
        exact hc.ext v hE hv
  have hset1 : ∀ w v, c.loc v ≠ none → (c.set w (result P E k w) true).loc v ≠ none := by
    intro w v hv
    by_cases e : v = w <;> simp [Ctx.set, e]
    exact hv
  have hset2 : ∀ w v, c.loc v = some (result P E k v) →
      (c.set w (result P E k w) true).loc v = some (result P E k v) := by
    intro w v hv
    by_cases e : v = w
    · subst e; simp [Ctx.set]
    · simp [Ctx.set, e, hv]
  cases h with
  | enter hh hl =>
    refine ⟨hg, ⟨hc.loc, hc.mixed, hc.ext⟩, ⟨hk, hl, rfl, id, hg.ext _⟩, rfl, fun _ => id,
      fun _ => id, fun _ => id, by simp [hh], by simp [hh, Task.isInit]⟩
  | skip hh hl =>
    exact ⟨hg, hc, ⟨hk, hl⟩, rfl, fun _ => id, fun _ => id, fun _ => id, by simp [hh],
      by simp [hh, Task.isInit]⟩
  | @init i w k' o =>
    simp only at hk
    subst hk
    obtain ⟨hl, hh, ho, hE⟩ := ht
    simp only at hl hh ho hE
    have hv : g.known w = result P E k' w ∨ (o = false ∧ g.known w = []) := by
      unfold Global.known
      cases hcw : g.cache w with
      | some e => exact .inl (hg.push hG hcw)
      | none =>
        refine .inr ⟨?_, rfl⟩
        cases o with
        | false => rfl
        | true => exact absurd hcw (hg.over w (ho rfl))
    generalize g.known w = r at hv ⊢
    refine ⟨hg, ⟨fun v => ?_, fun v hv' => ?_, fun v hE' hv' => ?_⟩, ⟨rfl, by simp [Ctx.set]⟩, rfl,
      fun _ => id, fun v hv' => ?_, fun v hv' => ?_, fun _ => .inr (by simp [Task.isInit]),
      by simp [Task.isInit, hh, Ctx.set]⟩
    · by_cases e : v = w
      · subst e
        rcases hv with rfl | ⟨_, rfl⟩ <;> simp [Ctx.set]
      · simpa [Ctx.set, e] using hc.loc v
    · by_cases e : v = w
      · subst e
        simp only [Ctx.set, if_true] at hv' ⊢
        rcases hv with rfl | ⟨h, _⟩
        · rfl
        · simp [h] at hv'
      · simp only [Ctx.set, e, if_false] at hv' ⊢
        exact hc.mixed v hv'
    · by_cases e : v = w
      · subst e
        simpa [Ctx.set] using hE hE'
      · simp only [Ctx.set, e, if_false] at hv' ⊢
        exact hc.ext v hE' hv'
    · by_cases e : v = w <;> simp [Ctx.set, e]
      exact hv'
    · by_cases e : v = w
      · subst e
        rw [hl] at hv'
        simp at hv'
      · simpa [Ctx.set, e] using hv'
  | cached hh hcw hm =>
    exact ⟨hg, hc, ⟨hk, hc.mixed _ hm⟩, rfl, fun _ => id, fun _ => id, fun _ => id, by simp [hh],
      by simp [hh, Task.isInit]⟩
  | decode hh hn =>
    exact ⟨hg, hc, ⟨hk, ht, rfl, [], rfl, rfl⟩, rfl, fun _ => id, fun _ => id, fun _ => id,
      by simp [hh], by simp [hh, Task.isInit]⟩
  | @segmentCached i w k' ds s rest b e hh hb he =>
    simp only at hk
    subst hk
    obtain ⟨hl, hb', l, hl', hds⟩ := ht
    simp only at hl hb' hl' hds
    have h1 := hg.push hG he
    have h2 := hg.segment hG (w := w) (by rw [hl']; simp) hb he
    rw [h1]
    refine ⟨hg, hset s, ⟨rfl, hset1 s _ hl, hb', l ++ [s], by simp [hl'], ?_⟩, rfl, fun _ => id,
      hset1 s, hset2 s, by simp [hh], by simp [hh, Task.isInit, Ctx.set]⟩
    rw [hds, List.map_append, ← h1, h2]
    rfl
  | @segmentCopied i w k' ds s rest b hb he =>
    simp only at hk
    subst hk
    obtain ⟨hl, hb', l, hl', hds⟩ := ht
    simp only at hl hb' hl' hds
    have hE : E s = none := by
      rcases hg.cache s with h | ⟨h, _⟩
      · rw [← h, he]
      · exact h
    refine ⟨hg, hc, ⟨rfl, hl, hb', l ++ [s], by simp [hl'], ?_⟩, rfl, fun _ => id,
      fun _ => id, fun _ => id, fun h => .inl ⟨h, rfl⟩, by simp [Task.isInit]⟩
    rw [hds, List.map_append]
    simp [segResult, hb, hE]
  | @segment i w k' ds s rest b hb =>
    simp only at hk
    subst hk
    obtain ⟨hl, hb', l, hl', hds⟩ := ht
    simp only at hl hb' hl' hds
    refine ⟨hg, hc, ⟨rfl, hl, hb', l ++ [s], by simp [hl'], ?_⟩, rfl, fun _ => id,
      fun _ => id, fun _ => id, fun h => .inl ⟨h, rfl⟩, by simp [Task.isInit]⟩
    rw [hds, List.map_append]
    simp [segResult, hb]
  | @joined i w k' ds b =>
    simp only at hk
    subst hk
    obtain ⟨hl, hb', l, hl', hds⟩ := ht
    simp only at hl hb' hl' hds
    refine ⟨hg, hc, ⟨rfl, hl, ?_⟩, rfl, fun _ => id,
      fun _ => id, fun _ => id, fun h => .inl ⟨h, rfl⟩, by simp [Task.isInit]⟩
    rw [hds, hb', wordResult, hl', List.append_nil]
  | mixed hh hm =>
    exact ⟨hg, hc, ⟨hk, hc.mixed _ hm⟩, rfl, fun _ => id, fun _ => id, fun _ => id, by simp [hh],
      by simp [hh, Task.isInit]⟩
  | @toMix i w k' r hh hm =>
    refine ⟨hg, hc, ⟨hk, ht.1, ht.2, ?_⟩, rfl, fun _ => id, fun _ => id, fun _ => id, by simp [hh],
      by simp [hh, Task.isInit]⟩
    cases hE : E w with
    | none => rfl
    | some e =>
      have := hc.ext w (by simp [hE]) ht.1
      simp [hm] at this
  | @mix i w k' r e hh hl =>
    simp only at hk
    subst hk
    obtain ⟨_, hr, hE⟩ := ht
    simp only at hr hE
    have hres : result P E k' w = push (wordResult P E k' w) := by
      unfold result
      rw [hE]
    have hm : mixture P r e = result P E k' w := by
      have hF := (hG.wordResult w).total_pos
      rw [hres, hr]
      unfold mixture
      rcases hc.loc w with h | h | h
      · rw [h] at hl
        simp at hl
      · rw [h] at hl
        cases hl
        rw [List.append_nil]
        exact push_scale hG.mix.ne' _
      · rw [h] at hl
        cases hl
        rw [hres]
        exact push_scale_append hG.mix hF
    rw [hm]
    have hput : GlobOk P E k' (g.put w (result P E k' w)) := by
      have hcv : ∀ v, (g.put w (result P E k' w)).cache v =
          if v = w then some (result P E k' w) else g.cache v := by
        intro v
        simp only [Global.put]
        rw [foldl_setCache w _ _ (hG.result w).1]
        by_cases ev : v = w
        · rw [if_pos ev, if_pos ev]
          congr 1
          rcases hg.cache w with h | ⟨_, h⟩
          · rw [h, hE, foldl_setCand_new]
            · rfl
            · exact result_nodup w
          · rw [h]
            exact foldl_setCand_same (result_nodup w) _ fun _ => id
        · rw [if_neg ev, if_neg ev]
      refine ⟨fun v => ?_, fun v hv => ?_, fun v hE' => ?_⟩
      · rw [hcv]
        by_cases ev : v = w
        · subst ev
          exact .inr ⟨hE, by simp⟩
        · rw [if_neg ev]
          exact hg.cache v
      · rw [hcv]
        by_cases ev : v = w
        · simp [ev]
        · rw [if_neg ev]
          simp only [Global.put, ev, if_false] at hv
          exact hg.over v hv
      · by_cases ev : v = w
        · simp [Global.put, ev]
        · simpa [Global.put, ev] using hg.ext v hE'
    refine ⟨?_, hset w, ⟨rfl, rfl⟩, rfl, fun v hv => ?_,
      hset1 w, hset2 w, by simp [hh], by simp [hh, Task.isInit, Ctx.set]⟩
    · split
      · exact hput
      · exact hg
    · split
      · by_cases ev : v = w
        · simp [Global.put, ev]
        · simpa [Global.put, ev] using hv
      · exact hv
  | return_ hh hl =>
    exact ⟨hg, hc, ⟨hk, by rw [hl] at ht; exact Option.some.inj ht⟩, rfl, fun _ => id, fun _ => id,
      fun _ => id, by simp [hh], by simp [hh, Task.isInit]⟩

theorem Inv.step (hG : Good P E k) {s s' : Sys K} (h : Inv P E k s) (hs : Step P s s') :
    Inv P E k s' := by
  obtain ⟨htasks, ht⟩ := hs
  rename_i a b t t' g' c'
  have hmem : t ∈ s.tasks := by rw [htasks]; simp
  obtain ⟨h1, h2, h3, h4, h5, h6, h7, h8, h9⟩ := ht.ok hG h.glob (h.ctx t.ctx) (h.task t hmem)
  have hcount := h.held
  refine ⟨h1, fun i => ?_, fun i => ?_, fun u hu => ?_⟩
  · by_cases e : i = t.ctx
    · subst e; simpa [update] using h2
    · simpa [update, e] using h.ctx i
  · have := hcount i
    rw [htasks, filter_isInit_middle] at this
    rw [filter_isInit_middle]
    by_cases e : i = t.ctx
    · subst e
      simp only [update, if_true]
      omega
    · have e1 : t.isInit i = false := by
        unfold Task.isInit; split
        · simpa using fun h => e h.symm
        · rfl
      have e2 : t'.isInit i = false := by
        unfold Task.isInit; split
        · simpa [h4] using fun h => e h.symm
        · rfl
      simp only [update, e, if_false]
      rw [e1] at this
      rw [e2]
      exact this
  · have hold : ∀ u ∈ a ++ b, TaskOk P E k g' (update s.ctxs t.ctx c' u.ctx) u := by
      intro u hu
      have hu' : u ∈ s.tasks := by
        rw [htasks]
        rcases List.mem_append.1 hu with h | h <;> simp [h]
      by_cases e : u.ctx = t.ctx
      · have hok := h.task u hu'
        rw [e] at hok ⊢
        simp only [update, if_true]
        by_cases ei : (s.ctxs t.ctx).held = true ∧ t.isInit t.ctx = true
        · -- no other thread initializes
          have hc := hcount t.ctx
          rw [htasks, filter_isInit_middle, ei.1, ei.2] at hc
          have hni : u.isInit t.ctx = false := by
            have hz : (a.filter (·.isInit t.ctx)).length = 0 ∧ (b.filter (·.isInit t.ctx)).length = 0 := by
              rw [if_pos rfl] at hc
              omega
            rcases List.mem_append.1 hu with hu | hu
            · have := List.filter_eq_nil_iff.1 (List.length_eq_zero_iff.1 hz.1) u hu
              simpa using this
            · have := List.filter_eq_nil_iff.1 (List.length_eq_zero_iff.1 hz.2) u hu
              simpa using this
          obtain ⟨i, w, k', pc⟩ := u
          refine ⟨hok.1, ?_⟩
          have hok := hok.2
          cases pc <;> simp only at hok ⊢
          · simp [Task.isInit] at hni
            exact absurd e hni
          · exact h6 _ hok
          · exact ⟨h6 _ hok.1, hok.2⟩
          · exact ⟨h6 _ hok.1, hok.2⟩
          · exact ⟨h6 _ hok.1, hok.2⟩
          · exact h7 _ hok
          · exact hok
        · refine hok.mono h5 h6 h7 fun hh => ?_
          rcases h8 hh with h | h
          · exact h
          · exact absurd ⟨hh, h⟩ ei
      · simp only [update, e, if_false]
        exact (h.task u hu').mono h5 (fun _ => id) (fun _ => id) fun h => ⟨h, rfl⟩
    rcases List.mem_append.1 hu with h | h
    · exact hold u (List.mem_append_left _ h)
    · rcases List.mem_cons.1 h with rfl | h
      · simpa [update, h4] using h3
      · exact hold u (List.mem_append_right _ h)

theorem Inv.initial (hE : ∀ w, ov w = true ↔ E w ≠ none) {tasks : List (Task K)}
    (ht : ∀ t ∈ tasks, t.k = k ∧ t.pc = .start) : Inv P E k (Sys.initial ⟨E, ov⟩ tasks) := by
  refine ⟨⟨fun w => .inl rfl, fun w => (hE w).1, fun w => (hE w).2⟩, fun i => ⟨fun _ => .inl rfl, ?_, ?_⟩,
    fun i => ?_, fun t htm => ⟨(ht t htm).1, ?_⟩⟩
  · intro w h
    simp [Sys.initial, Ctx.new] at h
  · intro w _ h
    simp [Sys.initial, Ctx.new] at h
  · simp only [Sys.initial, Ctx.new]
    rw [List.filter_eq_nil_iff.2]
    · simp
    · intro t htm
      simp [Task.isInit, (ht t htm).2]
  · rw [(ht t htm).2]
    trivial

theorem Inv.run (hG : Good P E k) {s s' : Sys K} (h : Inv P E k s) (hr : Run P s s') :
    Inv P E k s' := by
  induction hr with
  | nil => exact h
  | snoc _ hs ih => exact ih.step hG hs

/-! ## Progress -/

/-- A thread of a line whose mutex is free, or that holds it, can make a step. -/
theorem TaskOk.step {g : Global K} {c : Ctx K} {t : Task K} (h : TaskOk P E k g c t)
    (hd : ∀ r, t.pc ≠ .done r) (hh : c.held = false ∨ t.isInit t.ctx = true) :
    ∃ g' c' t', TStep P g c t g' c' t' := by
  obtain ⟨i, w, k', pc⟩ := t
  cases pc with
  | start =>
    have hh : c.held = false := by simpa [Task.isInit] using hh
    by_cases hl : c.loc w = none
    · exact ⟨_, _, _, .enter hh hl⟩
    · exact ⟨_, _, _, .skip hh hl⟩
  | initializing o => exact ⟨_, _, _, .init⟩
  | ready =>
    have hh : c.held = false := by simpa [Task.isInit] using hh
    by_cases hl : g.cache w ≠ none ∧ c.mixed w = true
    · exact ⟨_, _, _, .cached hh hl.1 hl.2⟩
    · exact ⟨_, _, _, .decode hh hl⟩
  | decoding ds rest b =>
    have hf : c.held = false := by simpa [Task.isInit] using hh
    cases rest with
    | nil => exact ⟨_, _, _, .joined⟩
    | cons s rest =>
      by_cases hb : P.best s k' = []
      · cases hc : g.cache s with
        | none => exact ⟨_, _, _, .segmentCopied hb hc⟩
        | some e => exact ⟨_, _, _, .segmentCached hf hb hc⟩
      · exact ⟨_, _, _, .segment hb⟩
  | decoded r =>
    have hh : c.held = false := by simpa [Task.isInit] using hh
    cases hm : c.mixed w with
    | true => exact ⟨_, _, _, .mixed hh hm⟩
    | false => exact ⟨_, _, _, .toMix hh hm⟩
  | mixing r =>
    have hh : c.held = false := by simpa [Task.isInit] using hh
    obtain ⟨e, he⟩ := Option.ne_none_iff_exists'.1 h.2.1
    exact ⟨_, _, _, .mix hh he⟩
  | returning =>
    have hh : c.held = false := by simpa [Task.isInit] using hh
    exact ⟨_, _, _, .return_ hh h.2⟩
  | done r => exact absurd rfl (hd r)

theorem Inv.progress {s : Sys K} (h : Inv P E k s) {t : Task K} (ht : t ∈ s.tasks)
    (hd : ∀ r, t.pc ≠ .done r) : ∃ s', Step P s s' := by
  have key : ∃ u ∈ s.tasks, (∀ r, u.pc ≠ .done r) ∧
      ((s.ctxs u.ctx).held = false ∨ u.isInit u.ctx = true) := by
    cases hh : (s.ctxs t.ctx).held with
    | false => exact ⟨t, ht, hd, .inl hh⟩
    | true =>
      have := h.held t.ctx
      rw [hh] at this
      obtain ⟨u, hu⟩ : ∃ u, u ∈ s.tasks.filter (·.isInit t.ctx) := by
        apply List.exists_mem_of_length_pos
        simp [this]
      obtain ⟨hu, hi⟩ := List.mem_filter.1 hu
      have hctx : u.ctx = t.ctx := by
        unfold Task.isInit at hi
        split at hi
        · simpa using hi
        · simp at hi
      refine ⟨u, hu, ?_, .inr (by rw [hctx]; exact hi)⟩
      intro r e
      simp [Task.isInit, e] at hi
  obtain ⟨u, hu, hd, hh⟩ := key
  obtain ⟨g', c', t', hs⟩ := (h.task u hu).step hd hh
  obtain ⟨a, b, e⟩ := List.append_of_mem hu
  exact ⟨_, .mk e hs⟩

/-! ## Termination -/

/-- Steps left to a thread. -/
def Task.left (P : Params K) (t : Task K) : Nat :=
  match t.pc with
  | .start => 6 + (segmentsOf P t.word).1.length
  | .initializing _ => 5 + (segmentsOf P t.word).1.length
  | .ready => 4 + (segmentsOf P t.word).1.length
  | .decoding _ rest _ => 3 + rest.length
  | .decoded _ => 2
  | .mixing _ => 1
  | .returning => 1
  | .done _ => 0

def Sys.left (P : Params K) (s : Sys K) : Nat := (s.tasks.map (·.left P)).sum

omit [IsStrictOrderedRing K] in
theorem TStep.left {g g' : Global K} {c c' : Ctx K} {t t' : Task K} (h : TStep P g c t g' c' t') :
    t'.left P < t.left P := by
  cases h <;> simp [Task.left]
  all_goals omega

omit [IsStrictOrderedRing K] in
theorem Step.left {s s' : Sys K} (h : Step P s s') : s'.left P < s.left P := by
  obtain ⟨htasks, ht⟩ := h
  have := ht.left
  simp only [Sys.left, htasks, List.map_append, List.map_cons, List.sum_append, List.sum_cons]
  omega

end
end Nisaba.PairLM
