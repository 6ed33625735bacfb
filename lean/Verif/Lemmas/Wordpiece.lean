import Verif.Model.Wordpiece
import Verif.Lemmas.Utf8
/-!
# Word-piece segmentation refines an abstract merge process

A segmentation is a list of pieces, a piece a non-empty list of characters, a character a non-empty
byte string.
-/
namespace Nisaba.Wordpiece

abbrev Piece := List (List Nat)

/-- Array of lengths that represents a segmentation. -/
def lay : List Piece → List Nat
  | [] => []
  | p :: t => (p.length :: List.replicate (p.length - 1) 0) ++ lay t

theorem lay_append (a b : List Piece) : lay (a ++ b) = lay a ++ lay b := by
  induction a with
  | nil => rfl
  | cons p t ih => simp [lay, ih]

theorem lay_length (ps : List Piece) (h : ∀ p ∈ ps, p ≠ []) :
    (lay ps).length = ps.flatten.length := by
  induction ps with
  | nil => rfl
  | cons p t ih =>
    have := List.length_pos_iff.2 (h p (by simp))
    simp only [lay, List.length_append, List.length_cons, List.length_replicate,
      List.flatten_cons, ih fun q hq => h q (by simp [hq])]
    omega

/-- Candidate entry for a piece. -/
def entry (ranks : Ranks) (p : Piece) : List Nat × Nat :=
  match ranks.find p.flatten with
  | some r => (p.flatten, r)
  | none => if p.length = 1 then (p.flatten, 0) else ([], 0)

theorem candsFrom_get (ranks : Ranks) (done p rest : Piece) (hp : p ≠ []) :
    (candsFrom ranks (done.length + 1) done.flatten (p ++ rest))[p.length - 1]? =
      some (entry ranks (done ++ p)) := by
  induction p generalizing done with
  | nil => exact absurd rfl hp
  | cons ch t ih =>
    simp only [List.cons_append, candsFrom]
    cases t with
    | nil =>
      simp only [List.length_cons, List.length_nil, Nat.zero_add, Nat.sub_self,
        List.getElem?_cons_zero, Option.some.injEq,
        entry, List.flatten_append, List.flatten_cons, List.flatten_nil,
        List.append_nil, List.length_append]
      cases ranks.find (done.flatten ++ ch) with
      | some r => rfl
      | none =>
        simp only
        split
        · next h =>
          have : done = [] := List.eq_nil_of_length_eq_zero (by omega)
          subst this
          simp
        · next h => rfl
    | cons c2 t =>
      have e : (ch :: c2 :: t).length - 1 = (c2 :: t).length - 1 + 1 := by simp
      rw [e, List.getElem?_cons_succ]
      have := ih (done ++ [ch]) (by simp)
      simp only [List.length_append, List.length_cons, List.length_nil, List.flatten_append,
        List.flatten_cons, List.flatten_nil, List.append_nil, List.append_assoc,
        List.cons_append, List.nil_append, Nat.zero_add] at this ⊢
      exact this

theorem cands_get (ranks : Ranks) (pre p rest : Piece) (hp : p ≠ []) :
    ∃ row, (extractCands ranks (pre ++ p ++ rest))[pre.length]? = some row ∧
      row[p.length]? = some (entry ranks p) := by
  induction pre with
  | nil =>
    cases p with
    | nil => exact absurd rfl hp
    | cons ch t =>
      refine ⟨_, rfl, ?_⟩
      have := candsFrom_get ranks [] (ch :: t) rest hp
      simp only [List.length_nil, List.flatten_nil, List.nil_append] at this
      rw [show (ch :: t).length = (ch :: t).length - 1 + 1 by simp, List.getElem?_cons_succ]
      exact this
  | cons c pre ih =>
    obtain ⟨row, h1, h2⟩ := ih
    exact ⟨row, by simpa [extractCands] using h1, h2⟩

theorem extractCands_length (ranks : Ranks) (chars : Piece) :
    (extractCands ranks chars).length = chars.length := by
  induction chars with
  | nil => rfl
  | cons c t ih => simp [extractCands, ih]

/-- One candidate merge considered. -/
def upd (m : Best) (b l : Nat) (r? : Option Nat) : Best :=
  match r? with
  | none => m
  | some r => match m with
    | none => some (b, l, r)
    | some (b0, l0, r0) => if r < r0 then some (b, l, r) else some (b0, l0, r0)

/-- One pass over a segmentation. -/
def goBest (ranks : Ranks) : Nat → List Piece → Best → Best
  | off, p :: q :: t, m =>
    goBest ranks (off + p.length) (q :: t)
      (upd m off (p.length + q.length) (ranks.find (p ++ q).flatten))
  | _, _, m => m

theorem passLoop_append (cands lens bs cs m) :
    passLoop cands lens (bs ++ cs) m =
      (passLoop cands lens bs m).bind fun m' => passLoop cands lens cs m' := by
  induction bs generalizing m with
  | nil => rfl
  | cons b bs ih =>
    simp only [List.cons_append, passLoop, Bind.bind]
    cases passStep cands lens m b with
    | error e => rfl
    | ok m' => simp only [Except.bind]; exact ih m'

theorem passLoop_zeros (cands lens bs m) (h : ∀ b ∈ bs, lens[b]? = some 0) :
    passLoop cands lens bs m = .ok m := by
  induction bs with
  | nil => rfl
  | cons b bs ih =>
    have hs : passStep cands lens m b = .ok m := by
      simp only [passStep, get, h b (by simp), Bind.bind, Except.bind]
      simp
    simp only [passLoop, hs, Bind.bind, Except.bind]
    exact ih fun x hx => h x (by simp [hx])

theorem flatten_flatten_ne_nil {p : Piece} (hp : p ≠ []) (hc : ∀ c ∈ p, c ≠ []) :
    p.flatten ≠ [] := by
  cases p with
  | nil => exact absurd rfl hp
  | cons c t =>
    have := hc c (by simp)
    simp [this]

theorem lay_head (pre t : List Piece) (p : Piece) (hpre : ∀ p ∈ pre, p ≠ []) :
    (lay (pre ++ p :: t))[pre.flatten.length]? = some p.length := by
  rw [lay_append, List.getElem?_append_right (by rw [lay_length pre hpre]; exact Nat.le_refl _),
    lay_length pre hpre, Nat.sub_self]
  simp [lay]

theorem lay_zero (pre t : List Piece) (p : Piece) (hpre : ∀ p ∈ pre, p ≠ []) (i : Nat)
    (h1 : 1 ≤ i) (h2 : i < p.length) :
    (lay (pre ++ p :: t))[pre.flatten.length + i]? = some 0 := by
  rw [lay_append, List.getElem?_append_right (by rw [lay_length pre hpre]; omega),
    lay_length pre hpre, Nat.add_sub_cancel_left, lay, List.cons_append]
  obtain ⟨j, rfl⟩ : ∃ j, i = j + 1 := ⟨i - 1, by omega⟩
  rw [List.getElem?_cons_succ, List.getElem?_append_left (by simp; omega)]
  simp [List.getElem?_replicate]; omega

theorem passLoop_spec (ranks : Ranks) (pre post : List Piece) (m : Best)
    (hpre : ∀ p ∈ pre, p ≠ []) (hpost : ∀ p ∈ post, p ≠ [] ∧ ∀ c ∈ p, c ≠ []) :
    passLoop (extractCands ranks (pre ++ post).flatten) (lay (pre ++ post))
      (List.range' pre.flatten.length post.flatten.length) m =
      .ok (goBest ranks pre.flatten.length post m) := by
  induction post generalizing pre m with
  | nil => rfl
  | cons p t ih =>
    have hp := (hpost p (by simp)).1
    have hpl := List.length_pos_iff.2 hp
    have hall : ∀ x ∈ pre ++ p :: t, x ≠ [] := by
      intro x hx
      rcases List.mem_append.1 hx with hx | hx
      · exact hpre x hx
      · exact (hpost x hx).1
    have hr : List.range' pre.flatten.length (p :: t).flatten.length =
        pre.flatten.length :: (List.range' (pre.flatten.length + 1) (p.length - 1) ++
          List.range' (pre.flatten.length + p.length) t.flatten.length) := by
      rw [List.flatten_cons, List.length_append,
        show p.length + t.flatten.length = (p.length - 1 + t.flatten.length) + 1 by omega,
        List.range'_succ, ← List.range'_append_1]
      rw [show pre.flatten.length + 1 + (p.length - 1) = pre.flatten.length + p.length by omega]
    have hz : ∀ b ∈ List.range' (pre.flatten.length + 1) (p.length - 1),
        (lay (pre ++ p :: t))[b]? = some 0 := by
      intro b hb
      rw [List.mem_range'_1] at hb
      have := lay_zero pre t p hpre (b - pre.flatten.length) (by omega) (by omega)
      rwa [show pre.flatten.length + (b - pre.flatten.length) = b by omega] at this
    have hlen : (lay (pre ++ p :: t)).length - pre.flatten.length = p.length + t.flatten.length := by
      rw [lay_length _ hall]; simp
    rw [hr]
    -- the remaining positions
    have hrest : ∀ m', passLoop (extractCands ranks (pre ++ p :: t).flatten) (lay (pre ++ p :: t))
        (List.range' (pre.flatten.length + 1) (p.length - 1) ++
          List.range' (pre.flatten.length + p.length) t.flatten.length) m' =
        .ok (goBest ranks (pre.flatten.length + p.length) t m') := by
      intro m'
      rw [passLoop_append, passLoop_zeros _ _ _ _ hz]
      simp only [Except.bind]
      have := ih (pre ++ [p]) m'
        (by intro x hx
            rcases List.mem_append.1 hx with hx | hx
            · exact hpre x hx
            · simp at hx; subst hx; exact hp)
        (fun x hx => hpost x (by simp [hx]))
      simpa using this
    simp only [passLoop, Bind.bind]
    have hstep : passStep (extractCands ranks (pre ++ p :: t).flatten) (lay (pre ++ p :: t)) m
        pre.flatten.length = .ok (match t with
          | [] => m
          | q :: _ => upd m pre.flatten.length (p.length + q.length)
              (ranks.find (p ++ q).flatten)) := by
      simp only [passStep, get, lay_head pre t p hpre, Bind.bind, Except.bind, hlen]
      cases t with
      | nil => simp
      | cons q t =>
        have hq := (hpost q (by simp)).1
        have hql := List.length_pos_iff.2 hq
        have hcond : (decide (p.length > 0) && decide (p.length < p.length +
            (q :: t).flatten.length)) = true := by
          simp only [List.flatten_cons, List.length_append, Bool.and_eq_true, decide_eq_true_eq]
          omega
        rw [hcond]
        have h2 := lay_head (pre ++ [p]) t q (by
          intro x hx
          rcases List.mem_append.1 hx with hx | hx
          · exact hpre x hx
          · simp at hx; subst hx; exact hp)
        simp only [List.append_assoc, List.cons_append, List.nil_append, List.flatten_append,
          List.length_append, List.flatten_cons, List.flatten_nil, List.append_nil] at h2
        simp only [if_true, h2]
        rw [if_neg (by omega)]
        obtain ⟨row, hr1, hr2⟩ := cands_get ranks pre.flatten (p ++ q) t.flatten (by simp [hp])
        have hfl : (pre ++ p :: q :: t).flatten = pre.flatten ++ (p ++ q) ++ t.flatten := by simp
        rw [hfl, hr1]
        simp only
        rw [List.length_append] at hr2
        rw [hr2]
        have hne : (p ++ q).flatten ≠ [] := flatten_flatten_ne_nil (by simp [hp]) (by
          intro c hc
          rcases List.mem_append.1 hc with hc | hc
          · exact (hpost p (by simp)).2 c hc
          · exact (hpost q (by simp)).2 c hc)
        cases hf : ranks.find (p ++ q).flatten with
        | none =>
          have he : entry ranks (p ++ q) = ([], 0) := by
            simp only [entry, hf]
            rw [if_neg (by rw [List.length_append]; omega)]
          simp [he, upd]
        | some r =>
          have : (p ++ q).flatten.isEmpty = false := by
            cases hh : (p ++ q).flatten with
            | nil => exact absurd hh hne
            | cons _ _ => rfl
          have he : entry ranks (p ++ q) = ((p ++ q).flatten, r) := by
            simp only [entry, hf]
          simp only [he, this]
          cases m with
          | none => simp [upd]
          | some v =>
            obtain ⟨b0, l0, r0⟩ := v
            simp only [upd, Bool.not_false, Bool.true_and, decide_eq_true_eq]
            split <;> rfl
    rw [hstep]
    simp only [Except.bind]
    rw [hrest]
    cases t with
    | nil => simp [goBest]
    | cons q t => simp only [goBest]

/-- What a pass finds. -/
theorem goBest_spec (ranks : Ranks) (off : Nat) (ps : List Piece) (m : Best) :
    (goBest ranks off ps m = none ↔ m = none ∧
      ∀ a p q c, ps = a ++ p :: q :: c → ranks.find (p ++ q).flatten = none) ∧
    ∀ b l r, goBest ranks off ps m = some (b, l, r) →
      (m = some (b, l, r) ∧ ∀ a p q c r', ps = a ++ p :: q :: c →
        ranks.find (p ++ q).flatten = some r' → r ≤ r') ∨
      (∃ a p q c, ps = a ++ p :: q :: c ∧ b = off + a.flatten.length ∧
        l = p.length + q.length ∧ ranks.find (p ++ q).flatten = some r ∧
        (∀ b0 l0 r0, m = some (b0, l0, r0) → r < r0) ∧
        ∀ a' p' q' c' r', ps = a' ++ p' :: q' :: c' → ranks.find (p' ++ q').flatten = some r' →
          r ≤ r' ∧ (a'.length < a.length → r < r')) := by
  induction ps generalizing off m with
  | nil =>
    simp only [goBest]
    refine ⟨by simp, ?_⟩
    intro b l r h
    exact Or.inl ⟨h, by simp⟩
  | cons p t ih =>
    cases t with
    | nil =>
      simp only [goBest]
      have hno : ∀ a (p' q' : Piece) c, [p] ≠ a ++ p' :: q' :: c := by
        intro a p' q' c h
        have := congrArg List.length h
        simp at this; omega
      refine ⟨⟨fun h => ⟨h, fun a p' q' c e => absurd e (hno a p' q' c)⟩, fun h => h.1⟩, ?_⟩
      intro b l r h
      exact Or.inl ⟨h, fun a p' q' c r' e => absurd e (hno a p' q' c)⟩
    | cons q t =>
      simp only [goBest]
      obtain ⟨ih1, ih2⟩ := ih (off + p.length)
        (upd m off (p.length + q.length) (ranks.find (p ++ q).flatten))
      have hcase : ∀ a p' q' c, p :: q :: t = a ++ p' :: q' :: c →
          (a = [] ∧ p' = p ∧ q' = q) ∨ ∃ a', a = p :: a' ∧ q :: t = a' ++ p' :: q' :: c := by
        intro a p' q' c e
        cases a with
        | nil =>
          simp only [List.nil_append, List.cons.injEq] at e
          exact Or.inl ⟨rfl, e.1.symm, e.2.1.symm⟩
        | cons x a' =>
          simp only [List.cons_append, List.cons.injEq] at e
          exact Or.inr ⟨a', by rw [e.1], e.2⟩
      constructor
      · rw [ih1]
        constructor
        · rintro ⟨h1, h2⟩
          have hm : m = none ∧ ranks.find (p ++ q).flatten = none := by
            unfold upd at h1
            split at h1
            · next h => exact ⟨h1, h⟩
            · split at h1
              · cases h1
              · split at h1 <;> cases h1
          refine ⟨hm.1, ?_⟩
          intro a p' q' c e
          rcases hcase a p' q' c e with ⟨rfl, rfl, rfl⟩ | ⟨a', rfl, e'⟩
          · exact hm.2
          · exact h2 a' p' q' c e'
        · rintro ⟨rfl, h⟩
          have h0 := h [] p q t rfl
          refine ⟨by simp only [upd, h0], ?_⟩
          intro a p' q' c e
          exact h (p :: a) p' q' c (by rw [e]; rfl)
      · intro b l r hres
        rcases ih2 b l r hres with ⟨hm, hmin⟩ | ⟨a, p', q', c, e, hb, hl, hr, hm, hmin⟩
        · -- the result was present after considering the first pair
          unfold upd at hm
          split at hm
          · next hnone =>
            left
            refine ⟨hm, ?_⟩
            intro a p' q' c r' e hr'
            rcases hcase a p' q' c e with ⟨rfl, rfl, rfl⟩ | ⟨a', rfl, e'⟩
            · rw [hnone] at hr'; cases hr'
            · exact hmin a' p' q' c r' e' hr'
          · next r1 hr1 =>
            split at hm
            · simp only [Option.some.injEq, Prod.mk.injEq] at hm
              obtain ⟨rfl, rfl, rfl⟩ := hm
              right
              refine ⟨[], p, q, t, rfl, by simp, rfl, hr1, by simp, ?_⟩
              intro a' p' q' c' r' e hr'
              refine ⟨?_, by simp⟩
              rcases hcase a' p' q' c' e with ⟨rfl, rfl, rfl⟩ | ⟨a'', rfl, e'⟩
              · rw [hr1] at hr'; simp only [Option.some.injEq] at hr'; omega
              · exact hmin a'' p' q' c' r' e' hr'
            · next b0 l0 r0 =>
              split at hm
              · next hlt =>
                simp only [Option.some.injEq, Prod.mk.injEq] at hm
                obtain ⟨rfl, rfl, rfl⟩ := hm
                right
                refine ⟨[], p, q, t, rfl, by simp, rfl, hr1, ?_, ?_⟩
                · intro b1 l1 r2 h
                  simp only [Option.some.injEq, Prod.mk.injEq] at h
                  omega
                · intro a' p' q' c' r' e hr'
                  refine ⟨?_, by simp⟩
                  rcases hcase a' p' q' c' e with ⟨rfl, rfl, rfl⟩ | ⟨a'', rfl, e'⟩
                  · rw [hr1] at hr'; simp only [Option.some.injEq] at hr'; omega
                  · exact hmin a'' p' q' c' r' e' hr'
              · next hge =>
                left
                simp only [Option.some.injEq, Prod.mk.injEq] at hm
                obtain ⟨rfl, rfl, rfl⟩ := hm
                refine ⟨rfl, ?_⟩
                intro a p' q' c r' e hr'
                rcases hcase a p' q' c e with ⟨rfl, rfl, rfl⟩ | ⟨a', rfl, e'⟩
                · rw [hr1] at hr'; simp only [Option.some.injEq] at hr'; omega
                · exact hmin a' p' q' c r' e' hr'
        · right
          refine ⟨p :: a, p', q', c, by rw [e]; rfl, by rw [hb]; simp; omega, hl, hr, ?_, ?_⟩
          · intro b0 l0 r0 hm0
            cases hf : ranks.find (p ++ q).flatten with
            | none => exact hm b0 l0 r0 (by simp only [upd, hf, hm0])
            | some r1 =>
              by_cases hlt : r1 < r0
              · have := hm off (p.length + q.length) r1 (by simp only [upd, hf, hm0, if_pos hlt])
                omega
              · exact hm b0 l0 r0 (by simp only [upd, hf, hm0, if_neg hlt])
          · intro a' p'' q'' c' r' e2 hr'
            rcases hcase a' p'' q'' c' e2 with ⟨rfl, rfl, rfl⟩ | ⟨a'', rfl, e'⟩
            · have hlt : r < r' := by
                cases hmm : m with
                | none => exact hm off (p''.length + q''.length) r' (by simp only [upd, hr', hmm])
                | some v =>
                  obtain ⟨b0, l0, r0⟩ := v
                  by_cases hlt : r' < r0
                  · exact hm off (p''.length + q''.length) r' (by simp only [upd, hr', hmm, if_pos hlt])
                  · have := hm b0 l0 r0 (by simp only [upd, hr', hmm, if_neg hlt])
                    omega
              exact ⟨by omega, fun _ => hlt⟩
            · have := hmin a'' p'' q'' c' r' e' hr'
              refine ⟨this.1, ?_⟩
              intro h
              exact this.2 (by simp at h; omega)

/-- Merge of the best adjacent pair: least rank, leftmost among equals. -/
def MergeStep (ranks : Ranks) (ps qs : List Piece) : Prop :=
  ∃ a p q c r, ps = a ++ p :: q :: c ∧ qs = a ++ (p ++ q) :: c ∧
    ranks.find (p ++ q).flatten = some r ∧
    ∀ a' p' q' c' r', ps = a' ++ p' :: q' :: c' → ranks.find (p' ++ q').flatten = some r' →
      r ≤ r' ∧ (a'.length < a.length → r < r')

/-- Zero or more merges. -/
inductive MergeSteps (ranks : Ranks) : List Piece → List Piece → Prop
  | refl (ps) : MergeSteps ranks ps ps
  | step {ps qs rs} : MergeStep ranks ps qs → MergeSteps ranks qs rs → MergeSteps ranks ps rs

theorem lay_merge (a c : List Piece) (p q : Piece) (ha : ∀ p ∈ a, p ≠ []) (hp : p ≠ [])
    (hq : q ≠ []) :
    ((lay (a ++ p :: q :: c)).set (a.flatten.length + p.length) 0).set a.flatten.length
      (p.length + q.length) = lay (a ++ (p ++ q) :: c) := by
  have hpl := List.length_pos_iff.2 hp
  have hql := List.length_pos_iff.2 hq
  rw [lay_append, lay_append, ← lay_length a ha]
  rw [List.set_append_right _ _ (by omega), Nat.add_sub_cancel_left,
    List.set_append_right _ _ (Nat.le_refl _), Nat.sub_self]
  congr 1
  simp only [lay]
  rw [List.set_append_right _ _ (by simp; omega)]
  have e : p.length - (p.length :: List.replicate (p.length - 1) 0).length = 0 := by simp; omega
  rw [e]
  simp only [List.cons_append, List.set_cons_zero, List.length_append]
  congr 1
  rw [show p.length + q.length - 1 = (p.length - 1) + (1 + (q.length - 1)) by omega,
    ← List.replicate_append_replicate, ← List.replicate_append_replicate]
  simp

theorem mergeLoop_spec (ranks : Ranks) (n : Nat) (ps : List Piece) (hn : ps.length < n)
    (hps : ∀ p ∈ ps, p ≠ [] ∧ ∀ c ∈ p, c ≠ []) :
    ∃ qs, mergeLoop (extractCands ranks ps.flatten) n (lay ps) = some (.ok (lay qs)) ∧
      MergeSteps ranks ps qs ∧ qs.flatten = ps.flatten ∧
      (∀ p ∈ qs, p ≠ [] ∧ ∀ c ∈ p, c ≠ []) ∧
      (∀ q ∈ qs, q ∈ ps ∨ (ranks.find q.flatten).isSome) ∧
      ∀ a p q c, qs = a ++ p :: q :: c → ranks.find (p ++ q).flatten = none := by
  induction n generalizing ps with
  | zero => omega
  | succ n ih =>
    have hlen := lay_length ps fun p hp => (hps p hp).1
    have hpass := passLoop_spec ranks [] ps none (by simp) hps
    simp only [List.nil_append, List.flatten_nil, List.length_nil] at hpass
    rw [← hlen, ← List.range_eq_range'] at hpass
    obtain ⟨h1, h2⟩ := goBest_spec ranks 0 ps none
    cases hg : goBest ranks 0 ps none with
    | none =>
      refine ⟨ps, ?_, .refl _, rfl, hps, fun q hq => Or.inl hq, (h1.1 hg).2⟩
      rw [hg] at hpass
      simp only [mergeLoop, hpass]
    | some v =>
      obtain ⟨b, l, r⟩ := v
      rcases h2 b l r hg with ⟨h, _⟩ | ⟨a, p, q, c, rfl, hb, rfl, hr, _, hmin⟩
      · cases h
      · rw [Nat.zero_add] at hb; subst hb
        have hp := (hps p (by simp)).1
        have hq := (hps q (by simp)).1
        have ha : ∀ p ∈ a, p ≠ [] := fun x hx => (hps x (by simp [hx])).1
        have hfl : (a ++ (p ++ q) :: c).flatten = (a ++ p :: q :: c).flatten := by simp
        obtain ⟨qs, e1, e2, e3, e4, e5, e6⟩ := ih (a ++ (p ++ q) :: c) (by simp at hn ⊢; omega) (by
          intro x hx
          rcases List.mem_append.1 hx with hx | hx
          · exact hps x (by simp [hx])
          · rcases List.mem_cons.1 hx with rfl | hx
            · refine ⟨by simp [hp], ?_⟩
              intro y hy
              rcases List.mem_append.1 hy with hy | hy
              · exact (hps p (by simp)).2 y hy
              · exact (hps q (by simp)).2 y hy
            · exact hps x (by simp [hx]))
        refine ⟨qs, ?_, .step ⟨a, p, q, c, r, rfl, rfl, hr, hmin⟩ e2, e3.trans hfl, e4, ?_, e6⟩
        · rw [hg] at hpass
          simp only [mergeLoop, hpass, get, lay_head a (q :: c) p ha]
          rw [lay_merge a c p q ha hp hq, ← hfl]
          exact e1
        · intro x hx
          rcases e5 x hx with h | h
          · rcases List.mem_append.1 h with h | h
            · exact Or.inl (by simp [h])
            · rcases List.mem_cons.1 h with rfl | h
              · exact Or.inr (by rw [hr]; rfl)
              · exact Or.inl (by simp [h])
          · exact Or.inr h

theorem collect_append {cands lens bs cs x y} (hx : collect cands lens bs = .ok x)
    (hy : collect cands lens cs = .ok y) : collect cands lens (bs ++ cs) = .ok (x ++ y) := by
  induction bs generalizing x with
  | nil =>
    simp only [collect, Except.ok.injEq] at hx
    subst hx; exact hy
  | cons b bs ih =>
    simp only [List.cons_append, collect, Bind.bind] at hx ⊢
    cases hl : get lens b with
    | error e => rw [hl] at hx; cases hx
    | ok l =>
      rw [hl] at hx
      simp only [Except.bind] at hx ⊢
      cases hc : collect cands lens bs with
      | error e => rw [hc] at hx; cases hx
      | ok z =>
        rw [hc] at hx
        rw [ih hc]
        simp only at hx ⊢
        split
        · next hpos =>
          rw [if_pos hpos] at hx
          cases hr : get cands b with
          | error e => rw [hr] at hx; cases hx
          | ok row =>
            rw [hr] at hx
            simp only at hx ⊢
            cases hw : get row l with
            | error e => rw [hw] at hx; cases hx
            | ok w =>
              rw [hw] at hx
              simp only [Except.ok.injEq] at hx ⊢
              rw [← hx]; rfl
        · next hpos =>
          rw [if_neg hpos] at hx
          simp only [Except.ok.injEq] at hx ⊢
          rw [hx]

theorem collect_zeros (cands lens bs) (h : ∀ b ∈ bs, lens[b]? = some 0) :
    collect cands lens bs = .ok [] := by
  induction bs with
  | nil => rfl
  | cons b bs ih =>
    simp only [collect, get, h b (by simp), ih fun x hx => h x (by simp [hx]), Bind.bind,
      Except.bind]
    simp

theorem collect_spec (ranks : Ranks) (pre post : List Piece) (hpre : ∀ p ∈ pre, p ≠ [])
    (hpost : ∀ p ∈ post, p ≠ [] ∧ (p.length = 1 ∨ (ranks.find p.flatten).isSome)) :
    collect (extractCands ranks (pre ++ post).flatten) (lay (pre ++ post))
      (List.range' pre.flatten.length post.flatten.length) = .ok (post.map List.flatten) := by
  induction post generalizing pre with
  | nil => rfl
  | cons p t ih =>
    obtain ⟨hp, hv⟩ := hpost p (by simp)
    have hpl := List.length_pos_iff.2 hp
    have hr : List.range' pre.flatten.length (p :: t).flatten.length =
        (pre.flatten.length :: List.range' (pre.flatten.length + 1) (p.length - 1)) ++
          List.range' (pre.flatten.length + p.length) t.flatten.length := by
      rw [List.flatten_cons, List.length_append,
        show p.length + t.flatten.length = (p.length - 1 + t.flatten.length) + 1 by omega,
        List.range'_succ, ← List.range'_append_1]
      rw [show pre.flatten.length + 1 + (p.length - 1) = pre.flatten.length + p.length by omega]
      rfl
    have hz : ∀ b ∈ List.range' (pre.flatten.length + 1) (p.length - 1),
        (lay (pre ++ p :: t))[b]? = some 0 := by
      intro b hb
      rw [List.mem_range'_1] at hb
      have := lay_zero pre t p hpre (b - pre.flatten.length) (by omega) (by omega)
      rwa [show pre.flatten.length + (b - pre.flatten.length) = b by omega] at this
    rw [hr]
    have hrest := ih (pre ++ [p])
        (by intro x hx
            rcases List.mem_append.1 hx with hx | hx
            · exact hpre x hx
            · simp at hx; subst hx; exact hp)
        (fun x hx => hpost x (by simp [hx]))
    have hhead : collect (extractCands ranks (pre ++ p :: t).flatten) (lay (pre ++ p :: t))
        (pre.flatten.length :: List.range' (pre.flatten.length + 1) (p.length - 1)) =
        .ok [p.flatten] := by
      obtain ⟨row, hr1, hr2⟩ := cands_get ranks pre.flatten p t.flatten hp
      have hfl : (pre ++ p :: t).flatten = pre.flatten ++ p ++ t.flatten := by simp
      rw [hfl]
      have he : (entry ranks p).1 = p.flatten := by
        unfold entry
        cases hf : ranks.find p.flatten with
        | some r => rfl
        | none =>
          rcases hv with hv | hv
          · simp [hv]
          · rw [hf] at hv; cases hv
      simp only [collect, get, lay_head pre t p hpre, collect_zeros _ _ _ hz, Bind.bind,
        Except.bind, hr1, hr2]
      rw [if_pos hpl, he]
    have := collect_append hhead (by simpa using hrest)
    simpa using this

theorem lay_singles (chars : Piece) :
    lay (chars.map fun c => [c]) = List.replicate chars.length 1 := by
  induction chars with
  | nil => rfl
  | cons c t ih => simp [lay, ih, List.replicate_succ]

theorem flatten_singles (chars : Piece) : (chars.map fun c => [c]).flatten = chars := by
  induction chars with
  | nil => rfl
  | cons c t ih => simp [ih]

theorem map_flatten_flatten (ps : List Piece) :
    (ps.map List.flatten).flatten = ps.flatten.flatten := by
  induction ps with
  | nil => rfl
  | cons p t ih => simp [ih]

/-- The segmentation of a word given as characters. -/
theorem tokenize_spec (ranks : Ranks) (chars : Piece) (hc : ∀ c ∈ chars, c ≠ []) :
    ∃ qs, tokenize (extractCands ranks chars) = some (.ok (qs.map List.flatten)) ∧
      MergeSteps ranks (chars.map fun c => [c]) qs ∧ qs.flatten = chars ∧
      (∀ p ∈ qs, p ≠ []) ∧
      (∀ q ∈ qs, q.length = 1 ∨ (ranks.find q.flatten).isSome) ∧
      ∀ a p q c, qs = a ++ p :: q :: c → ranks.find (p ++ q).flatten = none := by
  obtain ⟨qs, e1, e2, e3, e4, e5, e6⟩ := mergeLoop_spec ranks (chars.length + 1)
    (chars.map fun c => [c]) (by simp) (by
      intro p hp
      obtain ⟨c, hc', rfl⟩ := List.mem_map.1 hp
      exact ⟨by simp, by intro d hd; simp at hd; subst hd; exact hc d hc'⟩)
  have e5' : ∀ q ∈ qs, q.length = 1 ∨ (ranks.find q.flatten).isSome := by
    intro q hq
    rcases e5 q hq with h | h
    · obtain ⟨c, _, rfl⟩ := List.mem_map.1 h
      exact Or.inl rfl
    · exact Or.inr h
  refine ⟨qs, ?_, e2, e3.trans (flatten_singles chars), fun p hp => (e4 p hp).1, e5', e6⟩
  rw [flatten_singles] at e1 e3
  have hcol := collect_spec ranks [] qs (by simp) (fun p hp => ⟨(e4 p hp).1, e5' p hp⟩)
  simp only [List.nil_append, List.flatten_nil, List.length_nil] at hcol
  rw [← lay_length qs (fun p hp => (e4 p hp).1), ← List.range_eq_range', e3] at hcol
  unfold tokenize bestLengths
  rw [extractCands_length, ← lay_singles, e1]
  simp only [hcol]

/-! ## Ranks -/

theorem find_insert (m : Ranks) (s t : List Nat) (r : Nat) :
    (m.insert s r).find t = match m.find t with
      | some x => some x
      | none => if s = t then some r else none := by
  unfold Ranks.insert
  cases hs : m.find s with
  | some x =>
    simp only
    cases ht : m.find t with
    | some y => rfl
    | none =>
      simp only
      rw [if_neg]
      rintro rfl
      rw [hs] at ht; cases ht
  | none =>
    simp only [Ranks.find]
    split
    · next h => subst h; rw [hs]
    · cases m.find t <;> rfl

theorem initRanks_find (m : Ranks) (k : Nat) (vocab : List (List Nat)) (t : List Nat) (r : Nat) :
    (initRanks m k vocab).find t = some r ↔
      m.find t = some r ∨ (m.find t = none ∧ ∃ i, r = k + i ∧ vocab[i]? = some t ∧
        ∀ j, j < i → vocab[j]? ≠ some t) := by
  induction vocab generalizing m k with
  | nil => simp [initRanks]
  | cons s vs ih =>
    rw [initRanks, ih, find_insert]
    cases hm : m.find t with
    | some x => simp
    | none =>
      simp only [true_and, reduceCtorEq, false_or]
      by_cases hs : s = t
      · subst hs
        simp only [if_true, reduceCtorEq, Option.some.injEq, false_and, or_false]
        constructor
        · rintro rfl; exact ⟨0, rfl, rfl, by intro j hj; omega⟩
        · rintro ⟨i, rfl, h1, h2⟩
          cases i with
          | zero => rfl
          | succ i => exact absurd rfl (h2 0 (by omega))
      · rw [if_neg hs]
        simp only [reduceCtorEq, false_or, true_and]
        constructor
        · rintro ⟨i, rfl, h1, h2⟩
          refine ⟨i + 1, by omega, h1, ?_⟩
          intro j hj
          cases j with
          | zero => simp [hs]
          | succ j => exact h2 j (by omega)
        · rintro ⟨i, rfl, h1, h2⟩
          cases i with
          | zero => simp [hs] at h1
          | succ i =>
            exact ⟨i, by omega, h1, fun j hj => h2 (j + 1) (by omega)⟩

end Nisaba.Wordpiece
