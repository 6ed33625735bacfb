import Verif.Model.LmBackoff
import Mathlib.Tactic.Tauto
/-! # Backoff models and the lemmas about their conversion -/
namespace Nisaba.LmBackoff

variable {K : Type}

/-- The arcs of a state. -/
abbrev Lm.arcs (m : Lm K) (q : Nat) : List (Arc K) := (m.state q).arcs

/-- A backoff model as OpenGrm writes it: arcs are sorted by label, the arc with label 0 is the one to the
backoff state, backing off ends, and every state has an arc. -/
structure IsBackoff (m : Lm K) : Prop where
  some_arc : ∀ q < m.states.length, m.arcs q ≠ []
  nonneg : ∀ q, ∀ a ∈ m.arcs q, 0 ≤ a.label
  sorted : ∀ q, (m.arcs q).Pairwise fun a b => a.label ≤ b.label
  one_backoff : ∀ q, (m.arcs q).Pairwise fun a b => ¬ (a.label = 0 ∧ b.label = 0)
  target : ∀ q, ∀ a ∈ m.arcs q, a.next < m.states.length
  ends : ∃ rank : Nat → Nat, ∀ q, ∀ a ∈ m.arcs q, a.label = 0 → rank a.next < rank q

section
variable [AddCommMonoid K]

/-- The cost of ending in a state: its own final cost, else that of its backoff state. -/
inductive BoFinal (m : Lm K) : Nat → K → Prop
  | own {q c} : (m.state q).final = some c → BoFinal m q c
  | back {q c e} : (m.state q).final = none → e ∈ m.arcs q → e.label = 0 → BoFinal m e.next c →
      BoFinal m q (e.weight + c)

/-- The cost of a word after a state and the state reached: those of an arc with the word, else those of
the backoff state. -/
inductive BoStep (m : Lm K) : Nat → Int → K → Nat → Prop
  | own {q w a} : a ∈ m.arcs q → a.label = w → BoStep m q w a.weight a.next
  | back {q w c r e} : (∀ a ∈ m.arcs q, a.label ≠ w) → e ∈ m.arcs q → e.label = 0 →
      BoStep m e.next w c r → BoStep m q w (e.weight + c) r

/-- The cost of a string of words from a state. -/
inductive BoScore (m : Lm K) : Nat → List Int → K → Prop
  | nil {q c} : BoFinal m q c → BoScore m q [] c
  | cons {q w ws c r d} : BoStep m q w c r → BoScore m r ws d → BoScore m q (w :: ws) (c + d)
end

theorem state_nil {m : Lm K} {q : Nat} (h : m.states.length ≤ q) : m.state q = ⟨none, []⟩ := by
  simp [Lm.state, List.getD, List.getElem?_eq_none h]

theorem head_of_zero {m : Lm K} (h : IsBackoff m) {q : Nat} {e : Arc K} (he : e ∈ m.arcs q)
    (h0 : e.label = 0) : ∃ as, m.arcs q = e :: as := by
  cases ha : m.arcs q with
  | nil => rw [ha] at he; simp at he
  | cons a as =>
    have hs := h.sorted q
    have ho := h.one_backoff q
    have hn := h.nonneg q a (by rw [ha]; simp)
    rw [ha] at he hs ho
    rcases List.mem_cons.1 he with rfl | he
    · exact ⟨as, rfl⟩
    · have h1 := (List.pairwise_cons.1 hs).1 e he
      have h2 := (List.pairwise_cons.1 ho).1 e he
      exact absurd ⟨by omega, h0⟩ h2

theorem zero_unique {m : Lm K} (h : IsBackoff m) {q : Nat} {e f : Arc K} (he : e ∈ m.arcs q)
    (h0 : e.label = 0) (hf : f ∈ m.arcs q) (h1 : f.label = 0) : e = f := by
  obtain ⟨as, ha⟩ := head_of_zero h he h0
  obtain ⟨bs, hb⟩ := head_of_zero h hf h1
  rw [ha] at hb
  exact (List.cons.inj hb).1

variable [AddCommMonoid K]

theorem BoFinal.unique {m : Lm K} (h : IsBackoff m) {q : Nat} {c d : K} (h1 : BoFinal m q c)
    (h2 : BoFinal m q d) : c = d := by
  induction h1 generalizing d with
  | own hc =>
    cases h2 with
    | own hd => exact Option.some.inj (hc.symm.trans hd)
    | back hn _ _ _ => rw [hc] at hn; simp at hn
  | back hn he h0 _ ih =>
    cases h2 with
    | own hd => rw [hn] at hd; simp at hd
    | back _ hf h0' hd =>
      have := zero_unique h he h0 hf h0'
      subst this
      rw [ih hd]

/-- What the first loop keeps. -/
structure Inv (m0 m : Lm K) : Prop where
  start : m.start = m0.start
  len : m.states.length = m0.states.length
  arcs : ∀ q, m.arcs q = m0.arcs q
  kept : ∀ q c, (m0.state q).final = some c → (m.state q).final = some c
  sound : ∀ q c, (m.state q).final = some c → BoFinal m0 q c

omit [AddCommMonoid K] in
theorem setFinal_state (m : Lm K) (q : Nat) (v : Option K) (p : Nat) (hq : q < m.states.length) :
    (m.setFinal q v).state p = if p = q then { m.state q with final := v } else m.state p := by
  unfold Lm.setFinal Lm.state
  simp only [List.getD_eq_getElem?_getD, List.getElem?_set]
  by_cases h : p = q
  · subst h; simp [hq]
  · rw [if_neg (Ne.symm h), if_neg h]

theorem finalCost_spec {m0 : Lm K} (h : IsBackoff m0) {rank : Nat → Nat}
    (hr : ∀ q, ∀ a ∈ m0.arcs q, a.label = 0 → rank a.next < rank q) :
    ∀ (fuel : Nat) (m : Lm K) (q : Nat), Inv m0 m → q < m0.states.length → rank q < fuel →
      ∃ v m', finalCost fuel m q = some (v, m') ∧ Inv m0 m' ∧ (∀ c, v = some c ↔ BoFinal m0 q c) ∧
        (m'.state q).final = v ∧
        ∀ p c, (m.state p).final = some c → (m'.state p).final = some c := by
  intro fuel
  induction fuel with
  | zero => intro m q _ _ hf; omega
  | succ fuel ih =>
    intro m q hi hq hf
    unfold finalCost
    cases hfin : (m.state q).final with
    | some c =>
      refine ⟨some c, m, rfl, hi, fun d => ?_, hfin, fun _ _ hp => hp⟩
      constructor
      · intro e
        cases e
        exact hi.sound q c hfin
      · intro hd
        rw [(hi.sound q c hfin).unique h hd]
    | none =>
      have hfin0 : (m0.state q).final = none := by
        cases h0 : (m0.state q).final with
        | none => rfl
        | some c => rw [hi.kept q c h0] at hfin; simp at hfin
      have harcs := hi.arcs q
      cases ha : m0.arcs q with
      | nil => exact absurd ha (h.some_arc q hq)
      | cons a as =>
        rw [ha] at harcs
        have harcs' : (m.state q).arcs = a :: as := harcs
        simp only [getBackoff, harcs']
        have hmem : a ∈ m0.arcs q := by rw [ha]; simp
        by_cases h0 : a.label = 0
        · simp only [h0, ne_eq, not_true_eq_false, if_false]
          have hlt := hr q a hmem h0
          obtain ⟨v, m', he, hi', hv, -, hk⟩ := ih m a.next hi (h.target q a hmem) (by omega)
          rw [he]
          have hiff : ∀ c, v.map (a.weight + ·) = some c ↔ BoFinal m0 q c := by
            intro c
            constructor
            · intro hc
              cases v with
              | none => simp at hc
              | some d =>
                simp only [Option.map_some, Option.some.injEq] at hc
                subst hc
                exact .back hfin0 hmem h0 ((hv d).1 rfl)
            · intro hc
              cases hc with
              | own hc => rw [hfin0] at hc; simp at hc
              | back _ hf' h0' hd =>
                have := zero_unique h hmem h0 hf' h0'
                subst this
                rw [(hv _).2 hd]; rfl
          have hq' : q < m'.states.length := by rw [hi'.len]; exact hq
          refine ⟨_, _, rfl, ⟨hi'.start, by simp [Lm.setFinal, hi'.len], fun p => ?_, fun p c hp => ?_,
            fun p c hp => ?_⟩, hiff, ?_, fun p c hp => ?_⟩
          · simp only [Lm.arcs]
            rw [setFinal_state _ _ _ _ hq']
            by_cases e : p = q
            · subst e; simpa using hi'.arcs p
            · simpa [e] using hi'.arcs p
          · rw [setFinal_state _ _ _ _ hq']
            by_cases e : p = q
            · subst e; rw [hfin0] at hp; simp at hp
            · simpa [e] using hi'.kept p c hp
          · rw [setFinal_state _ _ _ _ hq'] at hp
            by_cases e : p = q
            · subst e
              simp only [if_true] at hp
              exact (hiff c).1 hp
            · simp only [e, if_false] at hp
              exact hi'.sound p c hp
          · rw [setFinal_state _ _ _ _ hq', if_pos rfl]
          · rw [setFinal_state _ _ _ _ hq']
            by_cases e : p = q
            · subst e; rw [hfin] at hp; simp at hp
            · simpa [e] using hk p c hp
        · simp only [h0, ne_eq, not_false_eq_true, if_true]
          refine ⟨none, m, rfl, hi, fun c => ?_, hfin, fun _ _ hp => hp⟩
          constructor
          · intro e; simp at e
          · intro hc
            cases hc with
            | own hc => rw [hfin0] at hc; simp at hc
            | back _ hf' h0' _ =>
              obtain ⟨bs, hb⟩ := head_of_zero h hf' h0'
              rw [ha] at hb
              rw [(List.cons.inj hb).1] at h0
              exact absurd h0' h0

theorem fillFinals_spec {m0 : Lm K} (h : IsBackoff m0) {rank : Nat → Nat}
    (hr : ∀ q, ∀ a ∈ m0.arcs q, a.label = 0 → rank a.next < rank q) {fuel : Nat}
    (hfuel : ∀ q < m0.states.length, rank q < fuel) :
    ∀ (qs : List Nat) (m : Lm K), Inv m0 m → (∀ q ∈ qs, q < m0.states.length) →
      ∃ m', fillFinals fuel qs m = some m' ∧ Inv m0 m' ∧
        (∀ p c, (m.state p).final = some c → (m'.state p).final = some c) ∧
        ∀ q ∈ qs, q ≠ m0.start → ∀ c, BoFinal m0 q c → (m'.state q).final = some c := by
  intro qs
  induction qs with
  | nil => intro m hi _; exact ⟨m, rfl, hi, fun _ _ hp => hp, by simp⟩
  | cons q qs ih =>
    intro m hi hq
    have hqs : ∀ p ∈ qs, p < m0.states.length := fun p hp => hq p (List.mem_cons_of_mem _ hp)
    have hql := hq q List.mem_cons_self
    unfold fillFinals
    by_cases hc : ((m.state q).final.isNone && q != m.start) = true
    · rw [if_pos hc]
      obtain ⟨v, m1, he, hi1, hv, hf, hk⟩ := finalCost_spec h hr fuel m q hi hql (hfuel q hql)
      rw [he]
      obtain ⟨m2, he2, hi2, hk2, hall⟩ := ih m1 hi1 hqs
      refine ⟨m2, he2, hi2, fun p c hp => hk2 p c (hk p c hp), fun p hp hps c hb => ?_⟩
      rcases List.mem_cons.1 hp with rfl | hp
      · exact hk2 p c (by rw [hf]; exact (hv c).2 hb)
      · exact hall p hp hps c hb
    · rw [if_neg hc]
      obtain ⟨m2, he2, hi2, hk2, hall⟩ := ih m hi hqs
      refine ⟨m2, he2, hi2, hk2, fun p hp hps c hb => ?_⟩
      rcases List.mem_cons.1 hp with rfl | hp
      · cases hfin : (m.state p).final with
        | none =>
          rw [hfin, hi.start] at hc
          simp [hps] at hc
        | some d =>
          rw [hb.unique h (hi.sound p d hfin)]
          exact hk2 p d hfin
      · exact hall p hp hps c hb

/-- The label after the second loop. -/
def re (a : Arc K) : Arc K := if a.label = 0 then { a with label := phi } else a

omit [AddCommMonoid K] in
theorem relabel_spec {s : State K} (hne : s.arcs ≠ []) (hn : ∀ a ∈ s.arcs, 0 ≤ a.label)
    (hs : s.arcs.Pairwise fun a b => a.label ≤ b.label)
    (ho : s.arcs.Pairwise fun a b => ¬ (a.label = 0 ∧ b.label = 0)) :
    ∃ s', relabel s = some s' ∧ s'.final = s.final ∧ s'.arcs = s.arcs.map re := by
  unfold relabel
  cases ha : s.arcs with
  | nil => exact absurd ha hne
  | cons a as =>
    rw [ha] at hs ho hn
    have hz : ∀ b ∈ as, b.label ≠ 0 := by
      intro b hb h0
      have h1 := (List.pairwise_cons.1 hs).1 b hb
      have h2 := (List.pairwise_cons.1 ho).1 b hb
      have h3 := hn a (by simp)
      exact h2 ⟨by omega, h0⟩
    have hmap : as.map re = as := by
      have : as.map re = as.map id := List.map_congr_left fun b hb => by simp [re, hz b hb]
      rw [this, List.map_id]
    by_cases h0 : a.label = 0
    · simp only [h0, if_true]
      exact ⟨_, rfl, rfl, by simp [re, h0, hmap]⟩
    · simp only [h0, if_false]
      exact ⟨_, rfl, rfl, by rw [ha]; simp [re, h0, hmap]⟩

omit [AddCommMonoid K] in
theorem mem_insertArc {a b : Arc K} : ∀ {l : List (Arc K)}, b ∈ insertArc a l ↔ b = a ∨ b ∈ l
  | [] => by simp [insertArc]
  | c :: l => by
    unfold insertArc
    split
    · simp
    · simp [mem_insertArc (l := l)]; tauto

omit [AddCommMonoid K] in
theorem mem_sortArcs {b : Arc K} : ∀ {l : List (Arc K)}, b ∈ sortArcs l ↔ b ∈ l
  | [] => by simp [sortArcs]
  | c :: l => by simp [sortArcs, mem_insertArc, mem_sortArcs (l := l)]

omit [AddCommMonoid K] in
theorem relabelAll_spec : ∀ (ss : List (State K)),
    (∀ s ∈ ss, s.arcs ≠ []) → (∀ s ∈ ss, ∀ a ∈ s.arcs, 0 ≤ a.label) →
    (∀ s ∈ ss, s.arcs.Pairwise fun a b => a.label ≤ b.label) →
    (∀ s ∈ ss, s.arcs.Pairwise fun a b => ¬ (a.label = 0 ∧ b.label = 0)) →
    ∃ ss' : List (State K), relabelAll ss = some ss' ∧ ss'.length = ss.length ∧
      ∀ (q : Nat) (s : State K), ss[q]? = some s → ∃ s', ss'[q]? = some s' ∧ s'.final = s.final ∧
        ∀ b, b ∈ s'.arcs ↔ ∃ a ∈ s.arcs, b = re a
  | [] => by intros; exact ⟨[], rfl, rfl, by simp⟩
  | s :: ss => by
    intro h1 h2 h3 h4
    obtain ⟨s', e, hf, ha⟩ := relabel_spec (h1 s (by simp)) (h2 s (by simp)) (h3 s (by simp))
      (h4 s (by simp))
    obtain ⟨ss', e', hl, hss⟩ := relabelAll_spec ss (fun s hs => h1 s (by simp [hs]))
      (fun s hs => h2 s (by simp [hs])) (fun s hs => h3 s (by simp [hs])) (fun s hs => h4 s (by simp [hs]))
    refine ⟨{ s' with arcs := sortArcs s'.arcs } :: ss', by simp only [relabelAll, e, e'],
      by simp [hl], ?_⟩
    intro q t ht
    cases q with
    | zero =>
      simp only [List.getElem?_cons_zero, Option.some.injEq] at ht
      subst ht
      refine ⟨_, rfl, hf, fun b => ?_⟩
      simp only [mem_sortArcs, ha, List.mem_map]
      exact ⟨fun ⟨a, h, e⟩ => ⟨a, h, e.symm⟩, fun ⟨a, h, e⟩ => ⟨a, h, e.symm⟩⟩
    | succ q =>
      simp only [List.getElem?_cons_succ] at ht ⊢
      exact hss q t ht

omit [AddCommMonoid K] in
theorem getElem?_state {m : Lm K} {q : Nat} (h : q < m.states.length) :
    m.states[q]? = some (m.state q) := by
  simp [Lm.state, List.getD, List.getElem?_eq_getElem h]

omit [AddCommMonoid K] in
theorem mem_states {m : Lm K} {s : State K} (h : s ∈ m.states) :
    ∃ q < m.states.length, s = m.state q := by
  obtain ⟨q, hq, e⟩ := List.getElem_of_mem h
  exact ⟨q, hq, by rw [← e]; simp [Lm.state, List.getD, List.getElem?_eq_getElem hq]⟩

theorem makePhi_spec {m : Lm K} (h : IsBackoff m) {rank : Nat → Nat}
    (hr : ∀ q, ∀ a ∈ m.arcs q, a.label = 0 → rank a.next < rank q) {fuel : Nat}
    (hfuel : ∀ q < m.states.length, rank q < fuel) :
    ∃ m', makePhi fuel m = some m' ∧ m'.start = m.start ∧ m'.states.length = m.states.length ∧
      (∀ q b, b ∈ m'.arcs q ↔ ∃ a ∈ m.arcs q, b = re a) ∧
      (∀ q c, (m'.state q).final = some c → BoFinal m q c) ∧
      (∀ q c, (m.state q).final = some c → (m'.state q).final = some c) ∧
      ∀ q, q ≠ m.start → ∀ c, BoFinal m q c → (m'.state q).final = some c := by
  obtain ⟨m1, he, hi, -, hall⟩ := fillFinals_spec h hr hfuel (List.range m.states.length) m
    ⟨rfl, rfl, fun _ => rfl, fun _ _ e => e, fun _ _ e => .own e⟩ (by simp)
  have harc : ∀ s ∈ m1.states, ∃ q < m.states.length, s.arcs = m.arcs q := by
    intro s hs
    obtain ⟨q, hq, rfl⟩ := mem_states hs
    exact ⟨q, by rw [← hi.len]; exact hq, hi.arcs q⟩
  obtain ⟨ss, hss, hl, hst⟩ := relabelAll_spec m1.states
    (fun s hs => by obtain ⟨q, hq, e⟩ := harc s hs; rw [e]; exact h.some_arc q hq)
    (fun s hs => by obtain ⟨q, hq, e⟩ := harc s hs; rw [e]; exact h.nonneg q)
    (fun s hs => by obtain ⟨q, hq, e⟩ := harc s hs; rw [e]; exact h.sorted q)
    (fun s hs => by obtain ⟨q, hq, e⟩ := harc s hs; rw [e]; exact h.one_backoff q)
  have key : ∀ q, ((⟨m1.start, ss⟩ : Lm K).state q).final = (m1.state q).final ∧
      ∀ b, b ∈ (⟨m1.start, ss⟩ : Lm K).arcs q ↔ ∃ a ∈ m1.arcs q, b = re a := by
    intro q
    by_cases hq : q < m1.states.length
    · obtain ⟨s', e, hf, ha⟩ := hst q _ (getElem?_state hq)
      have : (⟨m1.start, ss⟩ : Lm K).state q = s' := by
        simp [Lm.state, List.getD, e]
      simp only [Lm.arcs, this]
      exact ⟨hf, ha⟩
    · have h1 : m1.state q = ⟨none, []⟩ := state_nil (by omega)
      have h2 : (⟨m1.start, ss⟩ : Lm K).state q = ⟨none, []⟩ := state_nil (by simp [hl]; omega)
      simp [Lm.arcs, h1, h2]
  refine ⟨⟨m1.start, ss⟩, by simp [makePhi, he, hss], hi.start, by simp [hl, hi.len], fun q b => ?_,
    fun q c hc => ?_, fun q c hc => ?_, fun q hq c hc => ?_⟩
  · rw [(key q).2, hi.arcs]
  · rw [(key q).1] at hc; exact hi.sound q c hc
  · rw [(key q).1]; exact hi.kept q c hc
  · rw [(key q).1]
    by_cases hql : q < m.states.length
    · exact hall q (by simpa using hql) hq c hc
    · exfalso
      have hn := state_nil (m := m) (q := q) (by omega)
      cases hc with
      | own hc => rw [hn] at hc; simp at hc
      | back _ he' _ _ => simp [Lm.arcs, hn] at he'

theorem phiFind_spec {m m' : Lm K} (h : IsBackoff m) {rank : Nat → Nat}
    (hr : ∀ q, ∀ a ∈ m.arcs q, a.label = 0 → rank a.next < rank q)
    (harc : ∀ q b, b ∈ m'.arcs q ↔ ∃ a ∈ m.arcs q, b = re a) {w : Int} (hw : 0 < w) :
    ∀ (fuel q : Nat), rank q < fuel →
      ∃ l, phiFind fuel m' q w = some l ∧ ∀ c r, (c, r) ∈ l ↔ BoStep m q w c r := by
  intro fuel
  induction fuel with
  | zero => intro q hq; omega
  | succ fuel ih =>
    intro q hq
    unfold phiFind
    have hlab : ∀ b ∈ m'.arcs q, b.label = w → b ∈ m.arcs q := by
      intro b hb hl
      obtain ⟨a, ha, rfl⟩ := (harc q b).1 hb
      by_cases h0 : a.label = 0
      · simp [re, h0, phi] at hl; omega
      · simpa [re, h0] using ha
    have hlab' : ∀ a ∈ m.arcs q, a.label = w → a ∈ m'.arcs q := by
      intro a ha hl
      exact (harc q a).2 ⟨a, ha, by simp [re, show a.label ≠ 0 by omega]⟩
    by_cases hem : ((m'.state q).arcs.filter fun a => a.label == w).isEmpty = true
    · simp only [hem, if_true]
      have hno : ∀ a ∈ m.arcs q, a.label ≠ w := by
        intro a ha hl
        have : a ∈ (m'.state q).arcs.filter fun a => a.label == w :=
          List.mem_filter.2 ⟨hlab' a ha hl, by simp [hl]⟩
        rw [List.isEmpty_iff.1 hem] at this
        simp at this
      cases hf : (m'.state q).arcs.find? fun a => a.label == phi with
      | none =>
        refine ⟨[], rfl, fun c r => ⟨by simp, fun hs => ?_⟩⟩
        cases hs with
        | own ha hl => exact absurd hl (hno _ ha)
        | back _ he h0 _ =>
          have := List.find?_eq_none.1 hf _ ((harc q _).2 ⟨_, he, rfl⟩)
          simp [re, h0] at this
      | some e =>
        have he := List.mem_of_find?_eq_some hf
        have hp := List.find?_some hf
        obtain ⟨a, ha, rfl⟩ := (harc q e).1 he
        have h0 : a.label = 0 := by
          by_contra h0
          have := h.nonneg q a ha
          simp only [re, h0, if_false, phi, beq_iff_eq] at hp
          omega
        have hlt := hr q a ha h0
        have hne : (re a).next ≠ q := by
          simp only [re, h0, if_true]
          intro e; rw [e] at hlt; omega
        simp only [hne, if_false]
        obtain ⟨l, hl, hmem⟩ := ih a.next (by omega)
        have e1 : (re a).next = a.next := by simp [re, h0]
        have e2 : (re a).weight = a.weight := by simp [re, h0]
        rw [e1, hl, e2]
        refine ⟨_, rfl, fun c r => ?_⟩
        simp only [List.mem_map, Prod.mk.injEq, Prod.exists]
        constructor
        · rintro ⟨d, r', hd, rfl, rfl⟩
          exact .back hno ha h0 ((hmem _ _).1 hd)
        · intro hs
          cases hs with
          | own ha hl => exact absurd hl (hno _ ha)
          | back _ hf' h0' hs =>
            have := zero_unique h ha h0 hf' h0'
            subst this
            exact ⟨_, _, (hmem _ _).2 hs, rfl, rfl⟩
    · simp only [hem, Bool.false_eq_true, if_false]
      refine ⟨_, rfl, fun c r => ?_⟩
      simp only [List.mem_map, List.mem_filter, beq_iff_eq, Prod.mk.injEq]
      constructor
      · rintro ⟨a, ⟨ha, hl⟩, rfl, rfl⟩
        exact .own (hlab a ha hl) hl
      · intro hs
        cases hs with
        | own ha hl => exact ⟨_, ⟨hlab' _ ha hl, hl⟩, rfl, rfl⟩
        | back hno _ _ _ =>
          exfalso
          apply hem
          rw [List.isEmpty_iff]
          rw [List.filter_eq_nil_iff]
          intro b hb hl
          simp only [beq_iff_eq] at hl
          exact hno b (hlab b hb hl) hl

theorem afterArcs_spec {m' : Lm K} {fuel : Nat} {ws : List Int} {P : Nat → K → Prop}
    : ∀ (ps : List (K × Nat)),
    (∀ p ∈ ps, ∃ l, phiScores fuel m' p.2 ws = some l ∧ ∀ c, c ∈ l ↔ P p.2 c) →
    ∃ l, afterArcs (fun r => phiScores fuel m' r ws) ps = some l ∧
      ∀ c, c ∈ l ↔ ∃ p ∈ ps, ∃ d, P p.2 d ∧ c = p.1 + d
  | [], _ => ⟨[], by simp [afterArcs], by simp⟩
  | p :: ps, h => by
    obtain ⟨a, ha, hp⟩ := h p (by simp)
    obtain ⟨b, hb, hps⟩ := afterArcs_spec ps fun p hp => h p (by simp [hp])
    refine ⟨a.map (p.1 + ·) ++ b, by simp only [afterArcs, ha, hb], fun c => ?_⟩
    simp only [List.mem_append, List.mem_map, hps, List.mem_cons, exists_eq_or_imp]
    constructor
    · rintro (⟨d, hd, rfl⟩ | hc)
      · exact .inl ⟨d, (hp d).1 hd, rfl⟩
      · exact .inr hc
    · rintro (⟨d, hd, rfl⟩ | hc)
      · exact .inl ⟨d, (hp d).2 hd, rfl⟩
      · exact .inr hc

/-- Where a word leads. -/
theorem BoStep.arc {m : Lm K} {q : Nat} {w : Int} {c : K} {r : Nat} (h : BoStep m q w c r) :
    ∃ p, ∃ a ∈ m.arcs p, a.label = w ∧ a.next = r := by
  induction h with
  | own ha hl => exact ⟨_, _, ha, hl, rfl⟩
  | back _ _ _ _ ih => exact ih

theorem phiScores_spec {m m' : Lm K} (h : IsBackoff m) {rank : Nat → Nat}
    (hr : ∀ q, ∀ a ∈ m.arcs q, a.label = 0 → rank a.next < rank q)
    (harc : ∀ q b, b ∈ m'.arcs q ↔ ∃ a ∈ m.arcs q, b = re a) {fuel : Nat}
    (hfuel : ∀ q < m.states.length, rank q < fuel) (S : Nat → Prop)
    (hS : ∀ p, ∀ a ∈ m.arcs p, 0 < a.label → S a.next)
    (hfin : ∀ q, S q → ∀ c, (m'.state q).final = some c ↔ BoFinal m q c) :
    ∀ (ws : List Int) (q : Nat), q < m.states.length → (∀ w ∈ ws, 0 < w) → (ws = [] → S q) →
      ∃ l, phiScores fuel m' q ws = some l ∧ ∀ c, c ∈ l ↔ BoScore m q ws c := by
  intro ws
  induction ws with
  | nil =>
    intro q _ _ hs
    refine ⟨(m'.state q).final.toList, by simp only [phiScores], fun c => ?_⟩
    have := hfin q (hs rfl) c
    constructor
    · intro hc
      cases hf : (m'.state q).final with
      | none => rw [hf] at hc; simp at hc
      | some d =>
        rw [hf] at hc
        simp only [Option.toList_some, List.mem_singleton] at hc
        exact .nil (this.1 (by rw [hf, hc]))
    · intro hc
      cases hc with
      | nil hc => rw [this.2 hc]; simp
  | cons w ws ih =>
    intro q hq hw _
    obtain ⟨l, hl, hmem⟩ := phiFind_spec h hr harc (hw w (by simp)) fuel q (hfuel q hq)
    obtain ⟨l', hl', hmem'⟩ := afterArcs_spec (m' := m') (fuel := fuel) (ws := ws)
      (P := fun r c => BoScore m r ws c) l (by
      rintro ⟨c, r⟩ hp
      obtain ⟨p, a, ha, hl, rfl⟩ := ((hmem c r).1 hp).arc
      exact ih a.next (h.target p a ha) (fun v hv => hw v (by simp [hv]))
        fun _ => hS p a ha (by rw [hl]; exact hw w (by simp)))
    refine ⟨l', by simp only [phiScores, hl, hl'], fun c => ?_⟩
    rw [hmem']
    constructor
    · rintro ⟨⟨d, r⟩, hp, e, he, rfl⟩
      exact .cons ((hmem d r).1 hp) he
    · intro hs
      cases hs with
      | cons h1 h2 => exact ⟨_, (hmem _ _).2 h1, _, h2, rfl⟩

end Nisaba.LmBackoff
