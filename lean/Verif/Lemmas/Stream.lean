import Verif.Lemmas.Scan
/-!
# Streaming form of a cascade of rewrites, and a checker for its output

`settle` processes as much of a text as can be decided without seeing what follows.  A cascade of
rule sets becomes a machine whose state is one buffer per rule set.  A finite set of machine states
that is closed under all relevant characters proves that no text whatsoever makes the cascade
write one of the given bad sequences (`noBad_of_closed`).
-/
namespace Nisaba

/-- `b` is a prefix of some left-hand side. -/
def pending (rs : List Rule) (b : Str) : Bool := rs.any fun p => isPre b p.1

/-- (text written, text kept in the buffer). -/
def settle (rs : List Rule) : Nat → Str → Str × Str
  | 0, b => ([], b)
  | _ + 1, [] => ([], [])
  | n + 1, c :: s =>
    match findRule rs (c :: s) with
    | some p =>
      let r := settle rs n ((c :: s).drop p.1.length)
      (p.2 ++ r.1, r.2)
    | none =>
      bif pending rs (c :: s) then ([], c :: s)
      else
        let r := settle rs n s
        (c :: r.1, r.2)

theorem findRule_some {rs : List Rule} {s : Str} {p : Rule} (h : findRule rs s = some p) :
    p ∈ rs ∧ p.1 <+: s := by
  rw [← findRuleC_free [] s rs] at h
  have := findRuleC_some h
  exact ⟨this.1, ⟨_, this.2.1.symm⟩⟩

theorem findRule_none {rs : List Rule} {s : Str} (h : findRule rs s = none) :
    ∀ p ∈ rs, ¬ p.1 <+: s := by
  rw [← findRuleC_free [] s rs] at h
  rintro p hp ⟨t, ht⟩
  exact findRuleC_none h p.1 p.2 t ⟨hp, ht.symm, rfl, rfl⟩

theorem findRule_eq_some {rs : List Rule} {s : Str} {p : Rule} (hd : PrefixDet rs)
    (hp : p ∈ rs) (hs : p.1 <+: s) : findRule rs s = some p := by
  cases h : findRule rs s with
  | none => exact absurd hs (findRule_none h p hp)
  | some q =>
    obtain ⟨hq, hqs⟩ := findRule_some h
    rcases Nat.le_total p.1.length q.1.length with hl | hl
    · rw [hd p hp q hq (List.prefix_of_prefix_length_le hs hqs hl)]
    · rw [hd q hq p hp (List.prefix_of_prefix_length_le hqs hs hl)]

theorem scan_drop (rs : List Rule) (k : Nat) (s : Str) :
    scan rs k s = scan rs 0 (s.drop k) := by
  have := scanC_drop BCtx.free rs [] k s
  simpa [scanC_free] using this

theorem scan_some {rs : List Rule} {s : Str} {p : Rule} (hne : LhsNonempty rs)
    (h : findRule rs s = some p) : scan rs 0 s = p.2 ++ scan rs 0 (s.drop p.1.length) := by
  cases s with
  | nil =>
    have := findRule_some h
    exact absurd (List.prefix_nil.1 this.2) (hne p this.1)
  | cons c s =>
    rw [← findRuleC_free [] (c :: s) rs] at h
    have := scanC_cons_some hne h
    simpa [scanC_free] using this

theorem scan_none {rs : List Rule} {c : Nat} {s : Str} (h : findRule rs (c :: s) = none) :
    scan rs 0 (c :: s) = c :: scan rs 0 s := by
  simp [scan, h]

theorem settle_scan {rs : List Rule} (hne : LhsNonempty rs) (hd : PrefixDet rs) (n : Nat)
    (b x : Str) :
    scan rs 0 (b ++ x) = (settle rs n b).1 ++ scan rs 0 ((settle rs n b).2 ++ x) := by
  induction n generalizing b with
  | zero => simp [settle]
  | succ n ih =>
    cases b with
    | nil => simp [settle]
    | cons c s =>
      simp only [settle]
      cases hf : findRule rs (c :: s) with
      | some p =>
        obtain ⟨hp, t, ht⟩ := findRule_some hf
        have h' : findRule rs (c :: s ++ x) = some p :=
          findRule_eq_some hd hp ⟨t ++ x, by rw [← List.append_assoc, ht]⟩
        rw [scan_some hne h']
        have hdrop : (c :: s ++ x).drop p.1.length = (c :: s).drop p.1.length ++ x := by
          rw [← ht]; simp
        rw [hdrop, ih]
        simp
      | none =>
        simp only [Bool.cond_eq_ite]
        split
        · simp
        · rename_i hpend
          have h' : findRule rs (c :: (s ++ x)) = none := by
            cases hq : findRule rs (c :: (s ++ x)) with
            | none => rfl
            | some q =>
              exfalso
              obtain ⟨hq, hqs⟩ := findRule_some hq
              have hcs : (c :: s) <+: c :: (s ++ x) := ⟨x, rfl⟩
              rcases Nat.le_total q.1.length (c :: s).length with hl | hl
              · exact findRule_none hf q hq (List.prefix_of_prefix_length_le hqs hcs hl)
              · apply hpend
                simp only [pending, List.any_eq_true, isPre_iff]
                exact ⟨q, hq, List.prefix_of_prefix_length_le hcs hqs hl⟩
          show scan rs 0 (c :: (s ++ x)) = _
          rw [scan_none h', ih]
          simp

/-! ## Cascades -/

/-- Feeds text into a cascade with buffers; returns new buffers and the text written. -/
def feed : List (List Rule) → List Str → Str → List Str × Str
  | [], _, x => ([], x)
  | rs :: sts, bufs, x =>
    let bx := bufs.headD [] ++ x
    let r := settle rs bx.length bx
    let q := feed sts bufs.tail r.1
    (r.2 :: q.1, q.2)

/-- Everything the cascade will write when `x` is the rest of the text. -/
def finish : List (List Rule) → List Str → Str → Str
  | [], _, x => x
  | rs :: sts, bufs, x => finish sts bufs.tail (scan rs 0 (bufs.headD [] ++ x))

theorem finish_feed {sts : List (List Rule)} (hne : ∀ st ∈ sts, LhsNonempty st)
    (hd : ∀ st ∈ sts, PrefixDet st) (bufs : List Str) (c x : Str) :
    finish sts bufs (c ++ x) = (feed sts bufs c).2 ++ finish sts (feed sts bufs c).1 x := by
  induction sts generalizing bufs c x with
  | nil => simp [finish, feed]
  | cons rs sts ih =>
    simp only [finish, feed, List.headD_cons, List.tail_cons]
    rw [← List.append_assoc, settle_scan (hne rs (by simp)) (hd rs (by simp))
      (bufs.headD [] ++ c).length]
    rw [ih (fun x hx => hne x (List.mem_cons_of_mem _ hx))
      (fun x hx => hd x (List.mem_cons_of_mem _ hx))]

theorem finish_nil (sts : List (List Rule)) (x : Str) : finish sts [] x = scanAll sts x := by
  induction sts generalizing x with
  | nil => rfl
  | cons rs sts ih => simp [finish, scanAll, ih]

/-! ## Observer -/

/-- Longest suffix of `m` that is a prefix of a bad sequence. -/
def memo (bad : List Str) : Str → Str
  | [] => []
  | c :: m => bif bad.any (fun l => isPre (c :: m) l) then c :: m else memo bad m

/-- Reads text; `none` as soon as a bad sequence is seen. -/
def observe (bad : List Str) : Str → Str → Option Str
  | q, [] => some q
  | q, c :: t =>
    bif bad.any (fun l => isFactor l (q ++ [c])) then none
    else observe bad (memo bad (q ++ [c])) t

theorem memo_suffix {bad : List Str} {m u l : Str} (hl : l ∈ bad) (hu : u <:+ m) (hul : u <+: l) :
    u <:+ memo bad m := by
  induction m with
  | nil => simpa [memo] using hu
  | cons c m ih =>
    simp only [memo, Bool.cond_eq_ite]
    split
    · exact hu
    · rename_i h
      rcases List.suffix_cons_iff.1 hu with rfl | hu
      · exfalso; apply h
        simp only [List.any_eq_true, isPre_iff]
        exact ⟨l, hl, hul⟩
      · exact ih hu

/-- Memory `q` is adequate for text `t`. -/
def Adequate (bad : List Str) (q t : Str) : Prop :=
  ∀ l ∈ bad, ∀ u, u <:+ t → u <+: l → u <:+ q

theorem observe_sound {bad : List Str} (hne : ∀ l ∈ bad, l ≠ []) {q q' t t' : Str}
    (ha : Adequate bad q t) (hno : ∀ l ∈ bad, ¬ l <:+: t)
    (h : observe bad q t' = some q') :
    Adequate bad q' (t ++ t') ∧ ∀ l ∈ bad, ¬ l <:+: t ++ t' := by
  induction t' generalizing q t with
  | nil =>
    simp only [observe, Option.some.injEq] at h; subst h
    simpa using ⟨ha, hno⟩
  | cons c t' ih =>
    simp only [observe, Bool.cond_eq_ite] at h
    split at h
    · simp at h
    · rename_i hb
      have hb' : ∀ l ∈ bad, ¬ l <:+: q ++ [c] := by
        intro l hl hin
        apply hb
        simp only [List.any_eq_true, isFactor_iff]
        exact ⟨l, hl, hin⟩
      have key : ∀ l ∈ bad, ∀ u, u ≠ [] → u <:+ t ++ [c] → u <+: l → u <:+ q ++ [c] := by
        intro l hl u hu hs hp
        obtain ⟨v, hv⟩ := hs
        have : ∃ u', u = u' ++ [c] := by
          refine ⟨u.dropLast, ?_⟩
          have h1 := List.dropLast_concat_getLast hu
          have h2 : u.getLast hu = c := by
            have h3 : (v ++ u).getLast (by simp [hu]) = c := by simp [hv]
            rw [List.getLast_append_of_ne_nil (by simp [hu]) hu] at h3
            exact h3
          rw [h2] at h1; exact h1.symm
        obtain ⟨u', rfl⟩ := this
        have hs' : u' <:+ t := by
          rw [← List.append_assoc] at hv
          exact ⟨v, (List.append_inj' hv rfl).1⟩
        have := ha l hl u' hs' ((List.prefix_append u' [c]).trans hp)
        obtain ⟨w, hw⟩ := this
        exact ⟨w, by rw [← List.append_assoc, hw]⟩
      have := ih (q := memo bad (q ++ [c])) (t := t ++ [c]) ?_ ?_ h
      · simpa using this
      · intro l hl u hs hp
        by_cases hu : u = []
        · subst hu; exact List.nil_suffix
        · exact memo_suffix hl (key l hl u hu hs hp) hp
      · intro l hl hin
        rw [List.infix_concat_iff] at hin
        rcases hin with hin | hin
        · exact hb' l hl (key l hl l (hne l hl) hin (List.prefix_refl l)).isInfix
        · exact hno l hl hin

/-! ## The checker -/

/-- State: buffers of the cascade, memory of the observer. -/
abbrev MState := List Str × Str

def strsEq : List Str → List Str → Bool
  | [], [] => true
  | a :: as, b :: bs => strEq a b && strsEq as bs
  | _, _ => false

theorem strsEq_iff {a b : List Str} : strsEq a b = true ↔ a = b := by
  induction a generalizing b with
  | nil => cases b <;> simp [strsEq]
  | cons x xs ih => cases b <;> simp [strsEq, strEq_iff, ih]

def memState (I : List MState) (s : MState) : Bool := I.any fun t => strEq t.2 s.2 && strsEq t.1 s.1

theorem memState_iff {I : List MState} {s : MState} : memState I s = true ↔ s ∈ I := by
  obtain ⟨a, b⟩ := s
  simp only [memState, List.any_eq_true, Bool.and_eq_true, strEq_iff, strsEq_iff]
  constructor
  · rintro ⟨⟨x, y⟩, h, rfl, rfl⟩; exact h
  · intro h; exact ⟨(a, b), h, rfl, rfl⟩

/-- Successor state on one character, `none` if a bad sequence is written. -/
def next (sts : List (List Rule)) (bad : List Str) (s : MState) (c : Nat) : Option MState :=
  let r := feed sts s.1 [c]
  match observe bad s.2 r.2 with
  | some q => some (r.1, q)
  | none => none

/-- `I` is closed under the characters `alpha` and never ends in a bad sequence. -/
def closed (sts : List (List Rule)) (bad : List Str) (alpha : List Nat) (I : List MState) : Bool :=
  memState I ([], []) &&
  I.all fun s =>
    (match observe bad s.2 (finish sts s.1 []) with | some _ => true | none => false) &&
    alpha.all fun c =>
      match next sts bad s c with
      | some s' => memState I (s'.1, s'.2)
      | none => false

/-- Breadth-first exploration, used to find `I`.  Buffers are kept in the form `feed` returns. -/
def explore (sts : List (List Rule)) (bad : List Str) (alpha : List Nat) :
    Nat → List MState → List MState → List MState
  | 0, _, seen => seen
  | _ + 1, [], seen => seen
  | n + 1, s :: todo, seen =>
    let succ := alpha.filterMap (next sts bad s)
    let new := succ.foldl (fun acc t => bif memState seen t || memState acc t then acc else t :: acc) []
    explore sts bad alpha n (todo ++ new) (seen ++ new)

theorem noBad_over {sts : List (List Rule)} {bad : List Str} {alpha : List Nat} {I : List MState}
    (hne : ∀ st ∈ sts, LhsNonempty st) (hd : ∀ st ∈ sts, PrefixDet st)
    (hbad : ∀ l ∈ bad, l ≠ []) (hc : closed sts bad alpha I = true)
    {x : Str} (hx : ∀ c ∈ x, c ∈ alpha) : ∀ l ∈ bad, ¬ l <:+: scanAll sts x := by
  simp only [closed, Bool.and_eq_true, List.all_eq_true, memState_iff] at hc
  obtain ⟨h0, hI⟩ := hc
  have key : ∀ (x : Str), (∀ c ∈ x, c ∈ alpha) → ∀ s ∈ I, ∀ t, Adequate bad s.2 t →
      (∀ l ∈ bad, ¬ l <:+: t) → ∀ l ∈ bad, ¬ l <:+: t ++ finish sts s.1 x := by
    intro x
    induction x with
    | nil =>
      intro _ s hs t ha hno
      have := (hI s hs).1
      cases ho : observe bad s.2 (finish sts s.1 []) with
      | none => rw [ho] at this; simp at this
      | some q => exact (observe_sound hbad ha hno ho).2
    | cons c x ih =>
      intro hx s hs t ha hno
      have hcl := (hI s hs).2 c (hx c (by simp))
      unfold next at hcl
      cases ho : observe bad s.2 (feed sts s.1 [c]).2 with
      | none => simp [ho] at hcl
      | some q =>
        simp only [ho] at hcl
        have hmem := memState_iff.1 hcl
        obtain ⟨ha', hno'⟩ := observe_sound hbad ha hno ho
        have e := finish_feed hne hd s.1 [c] x
        simp only [List.singleton_append] at e
        rw [e, ← List.append_assoc]
        exact ih (fun d hd => hx d (List.mem_cons_of_mem _ hd)) ((feed sts s.1 [c]).1, q) hmem _ ha' hno'
  have := key x hx ([], []) h0 [] (by intro l _ u hu _; simpa using hu)
    (by intro l hl h; exact hbad l hl (List.infix_nil.1 h))
  simpa [finish_nil] using this

/-! ## Irrelevant characters separate -/

/-- Characters of the left-hand sides. -/
def lhsChars (sts : List (List Rule)) : List Nat := sts.flatMap fun st => st.flatMap fun p => p.1

theorem findRule_sep {rs : List Rule} {c : Nat} (hc : ∀ p ∈ rs, c ∉ p.1) (a b : Str) :
    findRule rs (a ++ c :: b) = findRule rs a := by
  induction rs with
  | nil => rfl
  | cons p rs ih =>
    have hp := hc p (by simp)
    have e : isPre p.1 (a ++ c :: b) = isPre p.1 a := by
      rw [Bool.eq_iff_iff, isPre_iff, isPre_iff]
      constructor
      · intro h
        rcases Nat.le_total p.1.length a.length with hl | hl
        · exact List.prefix_of_prefix_length_le h ⟨_, rfl⟩ hl
        · have h2 : a <+: p.1 := List.prefix_of_prefix_length_le ⟨_, rfl⟩ h hl
          obtain ⟨u, hu⟩ := h2
          cases u with
          | nil => simp at hu; rw [hu]; exact List.prefix_refl _
          | cons d u =>
            exfalso
            rw [← hu] at h
            have h3 := (List.prefix_append_right_inj a).1 h
            have : d = c := (List.cons_prefix_cons.1 h3).1
            subst this
            apply hp; rw [← hu]; simp
      · rintro ⟨t, ht⟩; exact ⟨t ++ c :: b, by rw [← ht]; simp⟩
    simp only [findRule, e]
    rw [ih (fun q hq => hc q (List.mem_cons_of_mem _ hq))]

theorem scan_sep {rs : List Rule} (hne : LhsNonempty rs) {c : Nat} (hc : ∀ p ∈ rs, c ∉ p.1)
    (a b : Str) : scan rs 0 (a ++ c :: b) = scan rs 0 a ++ c :: scan rs 0 b := by
  generalize hn : a.length = n
  induction n using Nat.strongRecOn generalizing a with
  | _ n ih =>
    have hf : findRule rs (a ++ c :: b) = findRule rs a := findRule_sep hc a b
    cases a with
    | nil =>
      have : findRule rs (c :: b) = none := by
        rw [List.nil_append] at hf
        rw [hf]
        cases h : findRule rs [] with
        | none => rfl
        | some p => exact absurd (List.prefix_nil.1 (findRule_some h).2) (hne p (findRule_some h).1)
      simp [scan, this]
    | cons d a =>
      cases hf' : findRule rs (d :: a) with
      | none =>
        rw [scan_none hf']
        have := ih a.length (by simp at hn; omega) a rfl
        rw [List.cons_append, scan_none (by rw [hf'] at hf; exact hf), this]
        simp
      | some p =>
        rw [hf'] at hf
        rw [scan_some hne hf, scan_some hne hf']
        obtain ⟨hp, t, ht⟩ := findRule_some hf'
        have e1 : (d :: a ++ c :: b).drop p.1.length = t ++ c :: b := by rw [← ht]; simp
        have e2 : (d :: a).drop p.1.length = t := by rw [← ht]; simp
        have hlt : t.length < n := by
          have h1 : (d :: a).length = p.1.length + t.length := by rw [← ht]; simp
          have h2 : p.1.length ≠ 0 := fun e => hne p hp (List.length_eq_zero_iff.1 e)
          omega
        rw [e1, e2, ih t.length hlt t rfl]
        simp

theorem scanAll_sep {sts : List (List Rule)} (hne : ∀ st ∈ sts, LhsNonempty st) {c : Nat}
    (hc : c ∉ lhsChars sts) (a b : Str) :
    scanAll sts (a ++ c :: b) = scanAll sts a ++ c :: scanAll sts b := by
  induction sts generalizing a b with
  | nil => rfl
  | cons st sts ih =>
    have h1 : ∀ p ∈ st, c ∉ p.1 := by
      intro p hp hcp
      apply hc
      simp only [lhsChars, List.flatMap_cons, List.mem_append, List.mem_flatMap]
      exact Or.inl ⟨p, hp, hcp⟩
    have h2 : c ∉ lhsChars sts := by
      intro h; apply hc
      simp only [lhsChars, List.flatMap_cons, List.mem_append] at h ⊢
      exact Or.inr h
    simp only [scanAll, scan_sep (hne st (by simp)) h1]
    exact ih (fun x hx => hne x (List.mem_cons_of_mem _ hx)) h2 _ _

/-- A bad sequence without `c` in `a ++ c :: b` lies in `a` or in `b`. -/
theorem infix_sep {l a b : Str} {c : Nat} (hc : c ∉ l) (h : l <:+: a ++ c :: b) :
    l <:+: a ∨ l <:+: b := by
  obtain ⟨u, v, huv⟩ := h
  -- compare the position of `c`
  rcases Nat.lt_or_ge a.length (u ++ l).length with hl | hl
  rotate_left
  · left
    have : (u ++ l) <+: a := List.prefix_of_prefix_length_le ⟨v, huv⟩ ⟨_, rfl⟩ hl
    exact (List.suffix_append u l).isInfix.trans this.isInfix
  · right
    rcases Nat.lt_or_ge a.length u.length with hu | hu
    · have h1 : (a ++ [c]) <+: u := by
        refine List.prefix_of_prefix_length_le (l₃ := a ++ c :: b) ⟨b, by simp⟩ ⟨l ++ v, ?_⟩ ?_
        · rw [← huv]; simp
        · simp; omega
      obtain ⟨w, hw⟩ := h1
      rw [← hw] at huv
      simp only [List.append_assoc, List.append_cancel_left_eq,
        List.cons_append, List.cons.injEq, true_and] at huv
      exact ⟨w, v, by rw [← huv]; simp⟩
    · -- `c` would be inside `l`
      exfalso
      have h1 : u <+: a := by
        refine List.prefix_of_prefix_length_le (l₃ := a ++ c :: b) ⟨l ++ v, ?_⟩ ⟨_, rfl⟩ hu
        rw [← huv]; simp
      obtain ⟨w, hw⟩ := h1
      rw [← hw] at huv
      simp only [List.append_assoc, List.append_cancel_left_eq] at huv
      have hlen : w.length < l.length := by
        rw [← hw] at hl; simp at hl; omega
      have h2 : (w ++ [c]) <+: l := by
        refine List.prefix_of_prefix_length_le (l₃ := l ++ v) ⟨b, by rw [huv]; simp⟩ ⟨_, rfl⟩ ?_
        simp; omega
      exact hc (h2.subset (by simp))

/-- No text makes the cascade write a bad sequence. -/
theorem noBad_of_closed {sts : List (List Rule)} {bad : List Str} {alpha : List Nat}
    {I : List MState}
    (hne : ∀ st ∈ sts, LhsNonempty st) (hd : ∀ st ∈ sts, PrefixDet st)
    (hbad : ∀ l ∈ bad, l ≠ []) (hba : ∀ l ∈ bad, ∀ c ∈ l, c ∈ alpha)
    (hal : ∀ c ∈ lhsChars sts, c ∈ alpha)
    (hc : closed sts bad alpha I = true) (x : Str) : ∀ l ∈ bad, ¬ l <:+: scanAll sts x := by
  generalize hn : x.length = n
  induction n using Nat.strongRecOn generalizing x with
  | _ n ih =>
    by_cases hx : ∀ c ∈ x, c ∈ alpha
    · exact noBad_over hne hd hbad hc hx
    · obtain ⟨c, hcx, hca⟩ : ∃ c, c ∈ x ∧ c ∉ alpha := by
        refine Classical.byContradiction fun h => hx fun c hc => ?_
        exact Classical.byContradiction fun h' => h ⟨c, hc, h'⟩
      obtain ⟨a, b, rfl⟩ := List.append_of_mem hcx
      intro l hl hin
      rw [scanAll_sep hne (fun h => hca (hal c h))] at hin
      rcases infix_sep (fun h => hca (hba l hl c h)) hin with h | h
      · exact ih a.length (by simp at hn; omega) a rfl l hl h
      · exact ih b.length (by simp at hn; omega) b rfl l hl h

theorem findRule_none_of {rs : List Rule} {s : Str} (h : ∀ p ∈ rs, ¬ p.1 <+: s) :
    findRule rs s = none := by
  cases hf : findRule rs s with
  | none => rfl
  | some p => exact absurd (findRule_some hf).2 (h p (findRule_some hf).1)

/-- Text without any left-hand side is left unchanged. -/
theorem scan_fixed {rs : List Rule} {s : Str} (h : ∀ p ∈ rs, ¬ p.1 <:+: s) :
    scan rs 0 s = s := by
  induction s with
  | nil => simp [scan]
  | cons c s ih =>
    rw [scan_none (findRule_none_of fun p hp hpre => h p hp hpre.isInfix),
      ih fun p hp hin => h p hp (hin.trans (List.suffix_cons c s).isInfix)]

theorem scanAll_fixed {sts : List (List Rule)} {s : Str}
    (h : ∀ st ∈ sts, ∀ p ∈ st, ¬ p.1 <:+: s) : scanAll sts s = s := by
  induction sts with
  | nil => rfl
  | cons st sts ih =>
    rw [scanAll, scan_fixed (h st (by simp)),
      ih fun st' hst' => h st' (List.mem_cons_of_mem _ hst')]

end Nisaba
