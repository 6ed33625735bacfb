import Verif.Lemmas.DeromCount
/-!
# The letter ṟ in Tamil
-/
namespace Nisaba.NT
namespace Derom

/-- Two neighbours. -/
def Pair (a b : Tok) (ts : List Tok) : Prop := ∃ u v, ts = u ++ a :: b :: v

theorem pair_append {a b : Tok} {X Y : List Tok} : Pair a b (X ++ Y) ↔
    Pair a b X ∨ Pair a b Y ∨ ∃ u v, X = u ++ [a] ∧ Y = b :: v := by
  constructor
  · rintro ⟨u, v, h⟩
    rcases List.append_eq_append_iff.1 h with ⟨z, h1, h2⟩ | ⟨z, h1, h2⟩
    · exact .inr (.inl ⟨z, v, h2⟩)
    · cases z with
      | nil => exact .inr (.inl ⟨[], v, by simpa using h2.symm⟩)
      | cons c z =>
        injection h2 with hc h2
        subst hc
        cases z with
        | nil => exact .inr (.inr ⟨u, v, h1, by simpa using h2.symm⟩)
        | cons d z =>
          injection h2 with hd h2
          subst hd
          exact .inl ⟨u, z, h1⟩
  · rintro (⟨u, v, rfl⟩ | ⟨u, v, rfl⟩ | ⟨u, v, rfl, rfl⟩)
    · exact ⟨u, v ++ Y, by simp⟩
    · exact ⟨X ++ u, v, by simp⟩
    · exact ⟨u, v, by simp⟩

/-- Executable form. -/
def hasP (a b : Tok) : List Tok → Bool
  | [] => false
  | x :: l => (teq a x && match l with
    | [] => false
    | y :: _ => teq b y) || hasP a b l

theorem hasP_iff {a b : Tok} {ts : List Tok} : hasP a b ts = true ↔ Pair a b ts := by
  induction ts with
  | nil =>
    constructor
    · intro h; cases h
    · rintro ⟨u, v, h⟩
      have := congrArg List.length h
      simp at this
  | cons x l ih =>
    rw [hasP.eq_def]
    simp only [Bool.or_eq_true, ih, Bool.and_eq_true, teq_iff]
    constructor
    · rintro (⟨h1, h2⟩ | ⟨u, v, rfl⟩)
      · cases l with
        | nil => cases h2
        | cons y l => exact ⟨[], l, by rw [h1, teq_iff.1 h2]; rfl⟩
      · exact ⟨x :: u, v, rfl⟩
    · rintro ⟨u, v, h⟩
      cases u with
      | nil =>
        injection h with h1 h2
        subst h2
        exact .inl ⟨h1.symm, teq_iff.2 rfl⟩
      | cons y u =>
        injection h with h1 h2
        exact .inr ⟨u, v, h2⟩

/-! ## No new pairs -/

/-- What a rule writes is not empty and has neither symbol of the pair; it writes the mark for a text
with the pair only. -/
def trA (a b c : Tok) (w : Rw) : Bool :=
  w.tok.all fun p => !p.2.isEmpty && !tmem p.2 a && !tmem p.2 b && (!tmem p.2 c || hasP a b p.1)

theorem pair_mid {a b : Tok} {A r l B : List Tok} (hr : r ≠ []) (ha : a ∉ r) (hb : b ∉ r)
    (h : Pair a b (A ++ (r ++ B))) : Pair a b (A ++ (l ++ B)) := by
  rw [pair_append, pair_append] at h ⊢
  rcases h with h | (⟨u, v, h⟩ | h | ⟨u, v, h, h'⟩) | ⟨u, v, h, h'⟩
  · exact .inl h
  · exact absurd (h ▸ by simp) ha
  · exact .inr (.inl (.inr (.inl h)))
  · exact absurd (h ▸ by simp) ha
  · cases r with
    | nil => exact absurd rfl hr
    | cons d r =>
      injection h' with h1 h2
      exact absurd (h1 ▸ by simp) hb

theorem go_noPair {a b c : Tok} {rs : List (List Tok × List Tok)} {P F : Con}
    (hrs : ∀ p ∈ rs, p.2 ≠ [] ∧ a ∉ p.2 ∧ b ∉ p.2 ∧ (c ∈ p.2 → Pair a b p.1)) {n : Nat}
    {rev rest : List Tok} (h : ¬ Pair a b (rev.reverse ++ rest)) (hc : c ∉ rev ∧ c ∉ rest) :
    ¬ Pair a b (go rs P F n rev rest) ∧ c ∉ go rs P F n rev rest := by
  induction n generalizing rev rest with
  | zero =>
    cases rest with
    | nil => rw [List.append_nil] at h; simpa [go] using And.intro h hc.1
    | cons d rest =>
      rw [go, List.mem_append, List.mem_reverse, not_or]
      · exact ⟨h, hc⟩
      · simp
  | succ n ih =>
    cases rest with
    | nil => rw [List.append_nil] at h; simpa [go] using And.intro h hc.1
    | cons d rest =>
      rw [go]
      cases hp : pick P F rev (d :: rest) rs with
      | none =>
        simp only
        refine ih (by simpa using h) ⟨?_, fun h => hc.2 (by simp [h])⟩
        rw [List.mem_cons, not_or]
        exact ⟨fun h => hc.2 (by simp [h]), hc.1⟩
      | some q =>
        obtain ⟨rest', r⟩ := q
        obtain ⟨l, hm, he, _, _⟩ := pick_some hp
        obtain ⟨h1, h2, h3, h4⟩ := hrs _ hm
        simp only at h1 h2 h3 h4 ⊢
        rw [he] at h hc
        refine ih ?_ ⟨?_, fun h => hc.2 (by simp [h])⟩
        · rw [List.reverse_append, List.reverse_reverse, List.append_assoc]
          exact fun h' => h (pair_mid h1 h2 h3 h')
        · rw [List.mem_append, List.mem_reverse, not_or]
          refine ⟨fun h' => h ?_, hc.1⟩
          rw [pair_append, pair_append]
          exact .inr (.inl (.inl (h4 h')))

theorem goIns_noPair {a b c : Tok} {r : List Tok} {P F : Con} (hr : r ≠ [] ∧ a ∉ r ∧ b ∉ r ∧ c ∉ r)
    {rev rest : List Tok} (h : ¬ Pair a b (rev.reverse ++ rest)) (hc : c ∉ rev ∧ c ∉ rest) :
    ¬ Pair a b (goIns r P F rev rest) ∧ c ∉ goIns r P F rev rest := by
  obtain ⟨h1, h2, h3, h4⟩ := hr
  have key : ∀ {rev rest : List Tok}, ¬ Pair a b (rev.reverse ++ rest) → c ∉ rev →
      ¬ Pair a b ((r.reverse ++ rev).reverse ++ rest) ∧ c ∉ r.reverse ++ rev := by
    intro rev rest h hc
    constructor
    · rw [List.reverse_append, List.reverse_reverse, List.append_assoc]
      exact fun h' => h (by simpa using pair_mid (l := []) h1 h2 h3 h')
    · rw [List.mem_append, List.mem_reverse, not_or]
      exact ⟨h4, hc⟩
  induction rest generalizing rev with
  | nil =>
    rw [goIns, cond_eq_ite]
    split
    · have := key h hc.1
      simpa [and_comm (a := c ∉ rev)] using this
    · rw [List.append_nil] at h; simpa using And.intro h hc.1
  | cons d rest ih =>
    have hd : c ≠ d := fun h => hc.2 (by simp [h])
    have hr' : c ∉ rest := fun h => hc.2 (by simp [h])
    rw [goIns, cond_eq_ite]
    split
    · have := key h hc.1
      refine ih (by simpa using this.1) ⟨?_, hr'⟩
      rw [List.mem_cons, not_or]
      exact ⟨hd, this.2⟩
    · refine ih (by simpa using h) ⟨?_, hr'⟩
      rw [List.mem_cons, not_or]
      exact ⟨hd, hc.1⟩

theorem run_noPair {a b c : Tok} {w : Rw} (hok : w.ok = true) (ht : trA a b c w = true) {ts : List Tok}
    (h : ¬ Pair a b ts) (hc : c ∉ ts) : ¬ Pair a b (w.run ts) ∧ c ∉ w.run ts := by
  have h0 : ∀ p ∈ w.tok, p.2 ≠ [] ∧ a ∉ p.2 ∧ b ∉ p.2 ∧ (c ∈ p.2 → Pair a b p.1) := by
    intro p hp
    have := List.all_eq_true.1 ht p hp
    simp only [Bool.and_eq_true, Bool.or_eq_true, Bool.not_eq_true', ← Bool.not_eq_true, tmem_iff,
      hasP_iff, List.isEmpty_iff] at this
    exact ⟨this.1.1.1, this.1.1.2, this.1.2, fun h => this.2.resolve_left (not_not_intro h)⟩
  rcases tok_ne hok with ⟨r, hr⟩ | hne
  · rw [run_ins hr]
    obtain ⟨h1, h2, h3, h4⟩ := h0 ([], r) (by rw [hr]; simp)
    refine goIns_noPair ⟨h1, h2, h3, fun h => ?_⟩ (by simpa using h) ⟨by simp, hc⟩
    obtain ⟨u, v, h⟩ := h4 h
    have := congrArg List.length h
    simp at this
  · rw [run_go hne]
    exact go_noPair h0 (by simpa using h) ⟨by simp, hc⟩

theorem runs_noPair {a b c : Tok} {ws : List Rw} (hok : ws.all Rw.ok = true)
    (ht : ws.all (trA a b c) = true) {ts : List Tok}
    (h : ¬ Pair a b ts) (hc : c ∉ ts) : ¬ Pair a b (runs ws ts) ∧ c ∉ runs ws ts := by
  induction ws generalizing ts with
  | nil => exact ⟨h, hc⟩
  | cons w ws ih =>
    rw [List.all_cons, Bool.and_eq_true] at hok ht
    rw [show runs (w :: ws) ts = runs ws (w.run ts) from rfl]
    have := run_noPair hok.1 ht.1 h hc
    exact ih hok.2 ht.2 this.1 this.2

/-! ## No pair is lost -/

/-- The left sides have no mark. -/
def keepC (c : Tok) (w : Rw) : Bool := w.tok.all fun p => !tmem p.1 c
/-- A rule that reads the pair writes the mark; the others do not end with the first symbol of the
pair nor begin with the second. -/
def trB (a b c : Tok) (w : Rw) : Bool :=
  w.tok.all fun p => tmem p.2 c || (!hasP a b p.1 &&
    !(match p.1 with | x :: _ => teq b x | [] => false) &&
    !(match p.1.reverse with | x :: _ => teq a x | [] => true))
/-- A rule that reads each pair. -/
def trF (a b : Tok) (w : Rw) : Bool :=
  free w && w.tok.any fun p => match p.1 with
    | [x, y] => teq a x && teq b y
    | _ => false
/-- The pair is kept up to a rule that reads each pair. -/
def trSplit (a b c : Tok) : List Rw → Bool
  | [] => false
  | w :: ws => trB a b c w && (trF a b w || trSplit a b c ws)

theorem go_keep {c : Tok} {rs : List (List Tok × List Tok)} {P F : Con}
    (hrs : ∀ p ∈ rs, c ∉ p.1) {n : Nat} {rev rest : List Tok} (h : c ∈ rev ∨ c ∈ rest) :
    c ∈ go rs P F n rev rest := by
  induction n generalizing rev rest with
  | zero => cases rest <;> simpa [go] using h
  | succ n ih =>
    cases rest with
    | nil => simpa [go] using h
    | cons d rest =>
      rw [go]
      cases hp : pick P F rev (d :: rest) rs with
      | none =>
        refine ih ?_
        rcases h with h | h
        · exact .inl (by simp [h])
        · rcases List.mem_cons.1 h with h | h
          · exact .inl (by simp [h])
          · exact .inr h
      | some q =>
        obtain ⟨rest', r⟩ := q
        obtain ⟨l, hm, he, _, _⟩ := pick_some hp
        refine ih ?_
        rcases h with h | h
        · exact .inl (by simp [h])
        · rw [he, List.mem_append] at h
          exact .inr (h.resolve_left (hrs _ hm))

theorem goIns_keep {c : Tok} {r : List Tok} {P F : Con} {rev rest : List Tok} (h : c ∈ rev ∨ c ∈ rest) :
    c ∈ goIns r P F rev rest := by
  induction rest generalizing rev with
  | nil =>
    have h : c ∈ rev := by simpa using h
    rw [goIns, cond_eq_ite]
    split <;> simp [h]
  | cons d rest ih =>
    rw [goIns, cond_eq_ite]
    split
    all_goals
      refine ih ?_
      rcases h with h | h
      · exact .inl (by simp [h])
      · rcases List.mem_cons.1 h with h | h
        · exact .inl (by simp [h])
        · exact .inr h

theorem run_mem {c : Tok} {w : Rw} (hok : w.ok = true) (hk : keepC c w = true) {ts : List Tok}
    (h : c ∈ ts) : c ∈ w.run ts := by
  rcases tok_ne hok with ⟨r, hr⟩ | hne
  · rw [run_ins hr]; exact goIns_keep (.inr h)
  · rw [run_go hne]
    refine go_keep (fun p hp => ?_) (.inr h)
    have := List.all_eq_true.1 hk p hp
    rw [Bool.not_eq_true', ← Bool.not_eq_true, tmem_iff] at this
    exact this

theorem runs_mem {c : Tok} {ws : List Rw} (hok : ws.all Rw.ok = true)
    (hk : ws.all (keepC c) = true) {ts : List Tok} (h : c ∈ ts) : c ∈ runs ws ts := by
  induction ws generalizing ts with
  | nil => exact h
  | cons w ws ih =>
    rw [List.all_cons, Bool.and_eq_true] at hok hk
    exact ih hok.2 hk.2 (run_mem hok.1 hk.1 h)

/-- The condition on a rule. -/
structure Keeps (a b c : Tok) (p : List Tok × List Tok) : Prop where
  mark : c ∉ p.1
  or : c ∈ p.2 ∨ (¬ Pair a b p.1 ∧ (∀ v, p.1 ≠ b :: v) ∧ (∀ u, p.1 ≠ u ++ [a]) ∧ p.1 ≠ [])

theorem go_pair {a b c : Tok} {rs : List (List Tok × List Tok)} {P F : Con}
    (hrs : ∀ p ∈ rs, Keeps a b c p) {n : Nat} {rev rest : List Tok}
    (h : Pair a b (rev.reverse ++ rest)) :
    Pair a b (go rs P F n rev rest) ∨ c ∈ go rs P F n rev rest := by
  induction n generalizing rev rest with
  | zero =>
    cases rest with
    | nil => exact .inl (by simpa [go] using h)
    | cons d rest => exact .inl (by simpa [go] using h)
  | succ n ih =>
    cases rest with
    | nil => exact .inl (by simpa [go] using h)
    | cons d rest =>
      rw [go]
      cases hp : pick P F rev (d :: rest) rs with
      | none => exact ih (by simpa using h)
      | some q =>
        obtain ⟨rest', r⟩ := q
        obtain ⟨l, hm, he, _, _⟩ := pick_some hp
        rcases (hrs _ hm).or with h1 | ⟨h1, h2, h3, h4⟩
        · exact .inr (go_keep (fun p hp => (hrs p hp).mark) (.inl (by simp [h1])))
        · refine ih ?_
          rw [he, pair_append, pair_append] at h
          rw [List.reverse_append, List.reverse_reverse, List.append_assoc, pair_append, pair_append]
          rcases h with h | (h | h | ⟨u, v, h, _⟩) | ⟨u, v, h, h'⟩
          · exact .inl h
          · exact absurd h h1
          · exact .inr (.inl (.inr (.inl h)))
          · exact absurd h (h3 u)
          · simp only at h2 h4
            cases l with
            | nil => exact absurd rfl h4
            | cons e l =>
              injection h' with h5 h6
              exact absurd (h5 ▸ rfl) (h2 l)

/-- A rule that reads each pair leaves none. -/
theorem go_none {a b : Tok} {rs : List (List Tok × List Tok)} {P F : Con} {r0 : List Tok}
    (hf : (∀ rev, lCtx P rev = true) ∧ ∀ rest, rCtx F rest = true) (h0 : ([a, b], r0) ∈ rs)
    (hrs : ∀ p ∈ rs, p.2 ≠ [] ∧ a ∉ p.2 ∧ b ∉ p.2) {n : Nat} {rev rest : List Tok}
    (hn : rest.length ≤ n) (hne : ∀ l r, (l, r) ∈ rs → l ≠ [])
    (h : ¬ Pair a b rev.reverse) (hj : ¬ ((∃ u, rev.reverse = u ++ [a]) ∧ ∃ v, rest = b :: v)) :
    ¬ Pair a b (go rs P F n rev rest) := by
  induction n generalizing rev rest with
  | zero =>
    cases rest with
    | nil => simpa [go] using h
    | cons d rest => simp at hn
  | succ n ih =>
    cases rest with
    | nil => simpa [go] using h
    | cons d rest =>
      have hn' : rest.length ≤ n := by simpa using hn
      rw [go]
      cases hp : pick P F rev (d :: rest) rs with
      | none =>
        simp only
        refine ih hn' ?_ ?_
        · rw [List.reverse_cons, pair_append]
          rintro (h1 | ⟨u, v, h1⟩ | ⟨u, v, h1, h2⟩)
          · exact h h1
          · have := congrArg List.length h1
            simp at this
            omega
          · injection h2 with h2 h3
            exact hj ⟨⟨u, h1⟩, rest, by rw [h2]⟩
        · rintro ⟨⟨u, h1⟩, v, h2⟩
          rw [List.reverse_cons] at h1
          have h3 := (List.append_inj' h1 rfl).2
          injection h3 with h3 _
          exact pick_none hp h0 (rest' := v) (by rw [h3, h2]; rfl) (hf.1 _) (hf.2 _)
      | some q =>
        obtain ⟨rest', r⟩ := q
        obtain ⟨l, hm, he, _, _⟩ := pick_some hp
        obtain ⟨h1, h2, h3⟩ := hrs _ hm
        have hl := hne l r hm
        simp only at h1 h2 h3 ⊢
        refine ih ?_ ?_ ?_
        · have := congrArg List.length he
          have h5 : 0 < l.length := List.length_pos_iff.2 hl
          simp at this
          omega
        · rw [List.reverse_append, List.reverse_reverse, pair_append]
          rintro (h5 | ⟨u, v, h5⟩ | ⟨u, v, h5, h6⟩)
          · exact h h5
          · exact h2 (by rw [h5]; simp)
          · exact h3 (by rw [h6]; simp)
        · rintro ⟨⟨u, h5⟩, _⟩
          rw [List.reverse_append, List.reverse_reverse] at h5
          rcases List.append_eq_append_iff.1 h5 with ⟨z, h6, h7⟩ | ⟨z, h6, h7⟩
          · cases z with
            | nil => exact h2 (by rw [show r = [a] by simpa using h7]; simp)
            | cons e z => exact h2 (by rw [h7]; simp)
          · have h8 := congrArg List.length h7
            have h9 : 0 < r.length := List.length_pos_iff.2 h1
            simp at h8
            have : z = [] := List.length_eq_zero_iff.1 (by omega)
            subst this
            have : r = [a] := by simpa using h7.symm
            exact h2 (by rw [this]; simp)

theorem keeps_of {a b c : Tok} {w : Rw} (hk : keepC c w = true) (hb : trB a b c w = true) :
    ∀ p ∈ w.tok, Keeps a b c p := by
  intro p hp
  have h1 := List.all_eq_true.1 hk p hp
  have h2 := List.all_eq_true.1 hb p hp
  rw [Bool.not_eq_true', ← Bool.not_eq_true, tmem_iff] at h1
  simp only [Bool.or_eq_true, tmem_iff, Bool.and_eq_true, Bool.not_eq_true'] at h2
  refine ⟨h1, h2.imp id ?_⟩
  rintro ⟨⟨h3, h4⟩, h5⟩
  rw [← Bool.not_eq_true, hasP_iff] at h3
  refine ⟨h3, fun v hv => ?_, fun u hu => ?_, fun hn => ?_⟩
  · rw [hv] at h4
    simp only at h4
    rw [teq_iff.2 rfl] at h4
    cases h4
  · rw [hu, List.reverse_append] at h5
    simp only [List.reverse_cons, List.reverse_nil, List.nil_append, List.cons_append] at h5
    rw [teq_iff.2 rfl] at h5
    cases h5
  · rw [hn] at h5
    cases h5

theorem runs_pair {a b c : Tok} {ws : List Rw} (hok : ws.all Rw.ok = true)
    (hk : ws.all (keepC c) = true) (hA : ws.all (trA a b c) = true) (hs : trSplit a b c ws = true)
    {ts : List Tok} (h : Pair a b ts) : c ∈ runs ws ts := by
  induction ws generalizing ts with
  | nil => cases hs
  | cons w ws ih =>
    rw [List.all_cons, Bool.and_eq_true] at hok hk hA
    rw [trSplit, Bool.and_eq_true, Bool.or_eq_true] at hs
    rw [show runs (w :: ws) ts = runs ws (w.run ts) from rfl]
    have hkp := keeps_of hk.1 hs.1
    rcases tok_ne hok.1 with ⟨r, hr⟩ | hne
    · exfalso
      have hm : ([], r) ∈ w.tok := by rw [hr]; simp
      rcases (hkp _ hm).or with h1 | h1
      · have := List.all_eq_true.1 hA.1 _ hm
        simp only [Bool.and_eq_true, Bool.or_eq_true, Bool.not_eq_true', ← Bool.not_eq_true, tmem_iff,
          hasP_iff] at this
        rcases this.2 with h2 | ⟨u, v, h2⟩
        · exact h2 h1
        · have := congrArg List.length h2
          simp at this
      · exact h1.2.2.2 rfl
    · have hg := go_pair (P := w.preceding) (F := w.following) hkp (n := ts.length) (rev := []) (rest := ts)
        (by simpa using h)
      rw [← run_go hne] at hg
      rcases hg with hg | hg
      · rcases hs.2 with h1 | h1
        · exfalso
          rw [trF, Bool.and_eq_true, List.any_eq_true] at h1
          obtain ⟨h1, p, hp, h2⟩ := h1
          obtain ⟨l, r⟩ := p
          simp only at h2
          split at h2
          · rw [Bool.and_eq_true, teq_iff, teq_iff] at h2
            obtain ⟨rfl, rfl⟩ := h2
            rw [run_go hne] at hg
            refine go_none (free_ctx h1) hp (fun q hq => ?_) (Nat.le_refl _) hne ?_ ?_ hg
            · have := List.all_eq_true.1 hA.1 _ hq
              simp only [Bool.and_eq_true, Bool.or_eq_true, Bool.not_eq_true', ← Bool.not_eq_true, tmem_iff,
                List.isEmpty_iff] at this
              exact ⟨this.1.1.1, this.1.1.2, this.1.2⟩
            · rintro ⟨u, v, h3⟩
              have := congrArg List.length h3
              simp at this
            · rintro ⟨⟨u, h3⟩, _⟩
              have := congrArg List.length h3
              simp at this
          · cases h2
        · exact ih hok.2 hk.2 hA.2 h1 hg
      · exact runs_mem hok.2 hk.2 hg

section
set_option maxRecDepth 100000
theorem ta_keepC : ((typOps ta ++ typ2iso ta).all (keepC (.t a!"rr"))) = true := by decide +kernel
theorem ta_trA : ((typOps ta).all (trA (.g a!"t") (.g a!"r") (.t a!"rr"))) = true := by decide +kernel
theorem ta_split : trSplit (.g a!"t") (.g a!"r") (.t a!"rr") (typOps ta) = true := by decide +kernel
theorem ta_none : ((typ2iso ta).all fun w =>
    w.tok.all fun p => !tmem p.1 (.t a!"rr") && !tmem p.2 (.t a!"rr")) = true := by decide +kernel
theorem rr_letters : ((alphas (typOps ta) LC).all fun a =>
    bif teq a (.t a!"rr") then (brT false a).any (Nat.beq 0xbb1)
    else !(brT false a).any (Nat.beq 0xbb1)) = true := by decide +kernel
theorem rr_glyphs : ((alphas (typOps ta ++ typ2iso ta) LC).all fun a =>
    bif teq a (.t a!"rr") then (glT a).any (Nat.beq 0x1e5f)
    else !(glT a).any (Nat.beq 0x1e5f)) = true := by decide +kernel
end

theorem mem_text {f : Tok → Str} {k : Nat} {c : Tok} {ts : List Tok} (h : ∀ a ∈ ts,
    (bif teq a c then (f a).any (Nat.beq k) else !(f a).any (Nat.beq k)) = true) :
    k ∈ ts.flatMap f ↔ c ∈ ts := by
  have hany : ∀ s : Str, s.any (Nat.beq k) = true ↔ k ∈ s := by
    intro s
    rw [List.any_eq_true]
    constructor
    · rintro ⟨x, hx, h⟩; rw [Nat.eq_of_beq_eq_true h]; exact hx
    · intro h; exact ⟨k, h, Nat.beq_refl k⟩
  rw [List.mem_flatMap]
  constructor
  · rintro ⟨a, ha, hk⟩
    have h1 := h a ha
    rw [cond_eq_ite] at h1
    split at h1
    · rename_i h2; rw [← teq_iff.1 h2]; exact ha
    · rw [Bool.not_eq_true', ← Bool.not_eq_true, hany] at h1
      exact absurd hk h1
  · intro hc
    have h1 := h c hc
    rw [teq_iff.2 rfl, cond_true, hany] at h1
    exact ⟨c, hc, h1⟩

theorem lat_pair {a b : Nat} {x : Str} : Pair (.g [a]) (.g [b]) (lat x) ↔ [a, b] <:+: x := by
  constructor
  · rintro ⟨u, v, h⟩
    rw [lat, List.map_eq_append_iff] at h
    obtain ⟨x1, x2, rfl, h1, h2⟩ := h
    rw [List.map_eq_cons_iff] at h2
    obtain ⟨c, x3, rfl, h3, h4⟩ := h2
    rw [List.map_eq_cons_iff] at h4
    obtain ⟨d, x4, rfl, h5, _⟩ := h4
    injection h3 with h3; injection h3 with h3
    injection h5 with h5; injection h5 with h5
    subst h3 h5
    exact ⟨x1, x4, by simp⟩
  · rintro ⟨u, v, rfl⟩
    exact ⟨lat u, lat v, by simp [lat]⟩

theorem rr_runs {x : Str} : Tok.t a!"rr" ∈ runs (typOps ta) (lat x) ↔ a!"tr" <:+: x := by
  have h1 := ta_trA
  have h2 := ta_keepC
  have h3 := ta_split
  have hok := (typOps_ok (P := ta) (.inr rfl)).1
  rw [List.all_append, Bool.and_eq_true] at h2
  generalize typOps ta = ws at *
  rw [show a!"tr" = [116, 114] from rfl, ← lat_pair]
  constructor
  · intro h
    apply Classical.byContradiction
    intro hn
    refine (runs_noPair hok h1 hn ?_).2 h
    intro hm
    obtain ⟨c, _, hc⟩ := List.mem_map.1 hm
    cases hc
  · exact runs_pair hok h2.1 h1 h3

theorem ta_rr {x : Str} (hx : lower x) : 0xbb1 ∈ brhOf ta x ↔ a!"tr" <:+: x := by
  have hok := (typOps_ok (P := ta) (.inr rfl)).1
  rw [← rr_runs, brhOf]
  exact mem_text fun a ha => List.all_eq_true.1 rr_letters a (runs_alpha hok (lat_mem hx) a ha)

theorem ta_rr_iso {x : Str} (hx : lower x) : 0x1e5f ∈ isoOf ta x ↔ a!"tr" <:+: x := by
  have hok := ta_ok
  have h4 := rr_glyphs
  have h5 := ta_none
  rw [← rr_runs, isoOf_eq]
  rw [mem_text (c := .t a!"rr") fun a ha => List.all_eq_true.1 h4 a (runs_alpha hok (lat_mem hx) a ha)]
  rw [List.all_append, Bool.and_eq_true] at hok
  rw [runs_append]
  have := runs_cnt hok.2 h5 (runs (typOps ta) (lat x))
  generalize runs (typOps ta) (lat x) = ts at *
  generalize typ2iso ta = vs at *
  have hm : ∀ l : List Tok, Tok.t a!"rr" ∈ l ↔ 0 < cnt (.t a!"rr") l := by
    intro l
    rw [cnt, List.length_pos_iff_exists_mem]
    constructor
    · intro h; exact ⟨_, List.mem_filter.2 ⟨h, teq_iff.2 rfl⟩⟩
    · rintro ⟨a, h⟩
      obtain ⟨h, h'⟩ := List.mem_filter.1 h
      rw [teq_iff.1 h']; exact h
  rw [hm, hm, this]

end Derom
end Nisaba.NT
