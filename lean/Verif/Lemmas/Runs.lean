import Verif.Lemmas.Nfc
/-!
# Rule sets of several scripts act separately on runs of one script
-/
namespace Nisaba

/-- Both sides of every rule belong to one class of characters, and nothing is deleted. -/
def Mono (cls : Nat → Nat) (rs : List Rule) : Prop :=
  ∀ p ∈ rs, p.2 ≠ [] ∧ ∃ k, (∀ c ∈ p.1, cls c = k) ∧ (∀ c ∈ p.2, cls c = k)

/-- Class of the first character is not `k`. -/
def HeadNe (cls : Nat → Nat) (k : Nat) (b : Str) : Prop := ∀ c t, b = c :: t → cls c ≠ k

theorem isPre_cut {cls : Nat → Nat} {l a b : Str} {k k' : Nat} (hl : ∀ c ∈ l, cls c = k')
    (ha : ∀ c ∈ a, cls c = k) (hane : a ≠ []) (hb : HeadNe cls k b) :
    isPre l (a ++ b) = isPre l a := by
  rw [Bool.eq_iff_iff, isPre_iff, isPre_iff]
  constructor
  · intro h
    rcases Nat.lt_or_ge a.length l.length with hlen | hlen
    · exfalso
      have h2 : a <+: l := List.prefix_of_prefix_length_le ⟨_, rfl⟩ h (Nat.le_of_lt hlen)
      obtain ⟨u, hu⟩ := h2
      cases u with
      | nil => simp at hu; rw [hu] at hlen; omega
      | cons d u =>
        rw [← hu] at h
        have h3 := (List.prefix_append_right_inj a).1 h
        cases b with
        | nil => simp at h3
        | cons e b =>
          have : d = e := (List.cons_prefix_cons.1 h3).1
          subst this
          have e1 : cls d = k' := hl d (by rw [← hu]; simp)
          cases a with
          | nil => exact hane rfl
          | cons x a =>
            have e2 : cls x = k' := hl x (by rw [← hu]; simp)
            have e3 : cls x = k := ha x (by simp)
            exact hb d b rfl (by omega)
    · exact List.prefix_of_prefix_length_le h ⟨_, rfl⟩ hlen
  · rintro ⟨t, ht⟩; exact ⟨t ++ b, by rw [← ht]; simp⟩

theorem findRule_cut {cls : Nat → Nat} {rs : List Rule} {a b : Str} {k : Nat} (hm : Mono cls rs)
    (ha : ∀ c ∈ a, cls c = k) (hane : a ≠ []) (hb : HeadNe cls k b) :
    findRule rs (a ++ b) = findRule rs a := by
  induction rs with
  | nil => rfl
  | cons p rs ih =>
    obtain ⟨_, k', hk', _⟩ := hm p (by simp)
    simp only [findRule, isPre_cut hk' ha hane hb, ih (fun q hq => hm q (List.mem_cons_of_mem _ hq))]

theorem scan_cut {cls : Nat → Nat} {rs : List Rule} {k : Nat} (hne : LhsNonempty rs)
    (hm : Mono cls rs) {a b : Str}
    (ha : ∀ c ∈ a, cls c = k) (hb : HeadNe cls k b) :
    scan rs 0 (a ++ b) = scan rs 0 a ++ scan rs 0 b := by
  generalize hn : a.length = n
  induction n using Nat.strongRecOn generalizing a with
  | _ n ih =>
    cases a with
    | nil => simp [scan]
    | cons d a =>
      have hf := findRule_cut hm ha (by simp) hb
      cases hf' : findRule rs (d :: a) with
      | none =>
        rw [hf', List.cons_append] at hf
        rw [scan_none hf', List.cons_append, scan_none hf,
          ih a.length (by simp at hn; omega) (fun c hc => ha c (List.mem_cons_of_mem _ hc)) rfl]
        simp
      | some p =>
        rw [hf'] at hf
        obtain ⟨hp, t, ht⟩ := findRule_some hf'
        rw [scan_some hne hf, scan_some hne hf']
        have e1 : (d :: a ++ b).drop p.1.length = t ++ b := by rw [← ht]; simp
        have e2 : (d :: a).drop p.1.length = t := by rw [← ht]; simp
        have hlt : t.length < n := by
          have h1 : (d :: a).length = p.1.length + t.length := by rw [← ht]; simp
          have h2 : p.1.length ≠ 0 := fun e => hne p hp (List.length_eq_zero_iff.1 e)
          omega
        rw [e1, e2, ih t.length hlt (fun c hc => ha c (by rw [← ht]; simp [hc])) rfl]
        simp

theorem scan_class {cls : Nat → Nat} {rs : List Rule} {k : Nat} (hne : LhsNonempty rs)
    (hm : Mono cls rs) {a : Str} (ha : ∀ c ∈ a, cls c = k) : ∀ c ∈ scan rs 0 a, cls c = k := by
  generalize hn : a.length = n
  induction n using Nat.strongRecOn generalizing a with
  | _ n ih =>
    cases a with
    | nil => simp [scan]
    | cons d a =>
      cases hf : findRule rs (d :: a) with
      | none =>
        rw [scan_none hf]
        intro c hc
        rcases List.mem_cons.1 hc with rfl | hc
        · exact ha c (by simp)
        · exact ih a.length (by simp at hn; omega) (fun c hc => ha c (List.mem_cons_of_mem _ hc)) rfl c hc
      | some p =>
        obtain ⟨hp, t, ht⟩ := findRule_some hf
        rw [scan_some hne hf]
        have e2 : (d :: a).drop p.1.length = t := by rw [← ht]; simp
        have hlt : t.length < n := by
          have h1 : (d :: a).length = p.1.length + t.length := by rw [← ht]; simp
          have h2 : p.1.length ≠ 0 := fun e => hne p hp (List.length_eq_zero_iff.1 e)
          omega
        rw [e2]
        intro c hc
        rcases List.mem_append.1 hc with hc | hc
        · obtain ⟨_, k', h1, h2⟩ := hm p hp
          obtain ⟨x, hx⟩ := List.exists_mem_of_ne_nil _ (hne p hp)
          have := h1 x hx
          have := ha x (by rw [← ht]; simp [hx])
          have := h2 c hc
          omega
        · exact ih t.length hlt (fun c hc => ha c (by rw [← ht]; simp [hc])) rfl c hc

theorem scan_headNe {cls : Nat → Nat} {rs : List Rule} {k : Nat} (hne : LhsNonempty rs)
    (hm : Mono cls rs) {b : Str} (hb : HeadNe cls k b) : HeadNe cls k (scan rs 0 b) := by
  cases b with
  | nil => simpa [scan] using hb
  | cons d b =>
    cases hf : findRule rs (d :: b) with
    | none =>
      rw [scan_none hf]
      intro c t h
      cases h
      exact hb _ _ rfl
    | some p =>
      obtain ⟨hp, t, ht⟩ := findRule_some hf
      rw [scan_some hne hf]
      obtain ⟨hr, k', h1, h2⟩ := hm p hp
      intro c u h
      cases hp2 : p.2 with
      | nil => exact absurd hp2 hr
      | cons e r =>
        rw [hp2] at h
        simp only [List.cons_append, List.cons.injEq] at h
        have e1 := h2 c (by rw [hp2, h.1]; simp)
        cases hp1 : p.1 with
        | nil => exact absurd hp1 (hne p hp)
        | cons f l =>
          rw [hp1] at ht
          simp only [List.cons_append, List.cons.injEq] at ht
          have e2 := h1 f (by rw [hp1]; simp)
          have e3 := hb d b rfl
          rw [← ht.1] at e3
          omega

theorem scanAll_cut {cls : Nat → Nat} {sts : List (List Rule)} {k : Nat}
    (hne : ∀ st ∈ sts, LhsNonempty st) (hm : ∀ st ∈ sts, Mono cls st) {a b : Str}
    (ha : ∀ c ∈ a, cls c = k) (hb : HeadNe cls k b) :
    scanAll sts (a ++ b) = scanAll sts a ++ scanAll sts b ∧
      (∀ c ∈ scanAll sts a, cls c = k) ∧ HeadNe cls k (scanAll sts b) := by
  induction sts generalizing a b with
  | nil => exact ⟨rfl, ha, hb⟩
  | cons st sts ih =>
    simp only [scanAll]
    rw [scan_cut (hne st (by simp)) (hm st (by simp)) ha hb]
    exact ih (fun s hs => hne s (List.mem_cons_of_mem _ hs))
      (fun s hs => hm s (List.mem_cons_of_mem _ hs))
      (scan_class (hne st (by simp)) (hm st (by simp)) ha)
      (scan_headNe (hne st (by simp)) (hm st (by simp)) hb)

/-- First run of one class. -/
theorem run_split (cls : Nat → Nat) (d : Nat) (x : Str) :
    ∃ a b, d :: x = a ++ b ∧ a ≠ [] ∧ (∀ c ∈ a, cls c = cls d) ∧ HeadNe cls (cls d) b := by
  induction x generalizing d with
  | nil => exact ⟨[d], [], rfl, by simp, by simp, by intro c t h; cases h⟩
  | cons e x ih =>
    by_cases h : cls e = cls d
    · obtain ⟨a, b, h1, h2, h3, h4⟩ := ih e
      refine ⟨d :: a, b, by rw [h1]; rfl, by simp, ?_, by rw [← h]; exact h4⟩
      intro c hc
      rcases List.mem_cons.1 hc with rfl | hc
      · rfl
      · rw [h3 c hc, h]
    · exact ⟨[d], e :: x, rfl, by simp, by simp, by intro c t h'; cases h'; exact h⟩

/-- A monochrome non-empty sequence lies on one side of a class boundary. -/
theorem infix_cut {cls : Nat → Nat} {l a b : Str} {k k' : Nat} (hl : ∀ c ∈ l, cls c = k')
    (ha : ∀ c ∈ a, cls c = k) (hb : HeadNe cls k b) (h : l <:+: a ++ b) :
    l <:+: a ∨ l <:+: b := by
  induction a with
  | nil => exact Or.inr h
  | cons x a ih =>
    rw [List.cons_append, List.infix_cons_iff] at h
    rcases h with h | h
    · left
      have := isPre_cut hl ha (by simp) hb (a := x :: a)
      rw [Bool.eq_iff_iff, isPre_iff, isPre_iff] at this
      exact (this.1 h).isInfix
    · rcases ih (fun c hc => ha c (List.mem_cons_of_mem _ hc)) h with h | h
      · exact Or.inl (h.trans (List.suffix_cons x a).isInfix)
      · exact Or.inr h

/-- If the cascade leaves no bad sequence in any run of one class, it leaves none in any text. -/
theorem noBad_of_runs {cls : Nat → Nat} {sts : List (List Rule)} {bad : List Str}
    (hne : ∀ st ∈ sts, LhsNonempty st) (hm : ∀ st ∈ sts, Mono cls st)
    (hbad : ∀ l ∈ bad, l ≠ [] ∧ ∃ k, ∀ c ∈ l, cls c = k)
    (hrun : ∀ k a, (∀ c ∈ a, cls c = k) → ∀ l ∈ bad, ¬ l <:+: scanAll sts a) (x : Str) :
    ∀ l ∈ bad, ¬ l <:+: scanAll sts x := by
  generalize hn : x.length = n
  induction n using Nat.strongRecOn generalizing x with
  | _ n ih =>
    cases x with
    | nil => exact hrun 0 [] (by simp)
    | cons d x =>
      obtain ⟨a, b, h1, h2, h3, h4⟩ := run_split cls d x
      intro l hl hin
      obtain ⟨e, ha', hb'⟩ := scanAll_cut hne hm h3 h4
      rw [h1, e] at hin
      obtain ⟨_, k', hk'⟩ := hbad l hl
      rcases infix_cut hk' ha' hb' hin with h | h
      · exact hrun _ a h3 l hl h
      · refine ih b.length ?_ b rfl l hl h
        have e1 : (d :: x).length = a.length + b.length := by rw [h1]; simp
        have e2 : a.length ≠ 0 := fun e => h2 (List.length_eq_zero_iff.1 e)
        omega

/-! ## Rules that cannot match may be dropped -/

/-- Membership in a list of characters, as a Boolean test. -/
def memNat (cs : List Nat) (c : Nat) : Bool := cs.any (Nat.beq c)

theorem memNat_iff {cs : List Nat} {c : Nat} : memNat cs c = true ↔ c ∈ cs := by
  simp only [memNat, List.any_eq_true]
  constructor
  · rintro ⟨d, hd, h⟩; rw [Nat.eq_of_beq_eq_true h]; exact hd
  · intro h; exact ⟨c, h, Nat.beq_refl c⟩

def overB (cs : List Nat) (s : Str) : Bool := s.all (memNat cs)

theorem overB_iff {cs : List Nat} {s : Str} : overB cs s = true ↔ ∀ c ∈ s, c ∈ cs := by
  simp [overB, List.all_eq_true, memNat_iff]

/-- Rules whose left-hand side is over `cs`. -/
def keepOver (cs : List Nat) (rs : List Rule) : List Rule := rs.filter fun p => overB cs p.1

theorem findRule_keep {cs : List Nat} {rs : List Rule} {s : Str} (hs : ∀ c ∈ s, c ∈ cs) :
    findRule rs s = findRule (keepOver cs rs) s := by
  induction rs with
  | nil => rfl
  | cons p rs ih =>
    simp only [keepOver, List.filter_cons]
    by_cases h : overB cs p.1 = true
    · simp only [h, ↓reduceIte, findRule]
      rw [ih]; rfl
    · simp only [h, findRule]
      have : isPre p.1 s = false := by
        rw [Bool.eq_false_iff, Ne, isPre_iff]
        intro hpre
        exact h (overB_iff.2 fun c hc => hs c (hpre.subset hc))
      simp only [this, cond_false]
      exact ih

theorem scan_keep {cs : List Nat} {rs : List Rule} (k : Nat) {s : Str} (hs : ∀ c ∈ s, c ∈ cs) :
    scan rs k s = scan (keepOver cs rs) k s := by
  induction s generalizing k with
  | nil => cases k <;> rfl
  | cons c s ih =>
    have hs' : ∀ c ∈ s, c ∈ cs := fun d hd => hs d (List.mem_cons_of_mem _ hd)
    cases k with
    | succ k => simp only [scan]; exact ih k hs'
    | zero =>
      simp only [scan, ← findRule_keep hs]
      cases findRule rs (c :: s) with
      | none => simp only [ih 0 hs']
      | some p => simp only [ih _ hs']

theorem scanAll_keep {cs : List Nat} {sts : List (List Rule)}
    (hr : ∀ st ∈ sts, ∀ p ∈ keepOver cs st, ∀ c ∈ p.2, c ∈ cs) {s : Str} (hs : ∀ c ∈ s, c ∈ cs) :
    scanAll sts s = scanAll (sts.map (keepOver cs)) s := by
  induction sts generalizing s with
  | nil => rfl
  | cons st sts ih =>
    simp only [scanAll, List.map_cons]
    rw [scan_keep 0 hs]
    refine ih (fun st' h => hr st' (List.mem_cons_of_mem _ h)) ?_
    exact over_scan (σ := fun c => c ∈ cs) (fun p hp c hc => hr st (by simp) p hp c hc) 0 s hs

theorem scan_nil_rules (k : Nat) (s : Str) : scan [] k s = s.drop k := by
  rw [scan_drop]
  exact scan_fixed (by simp)

theorem scanAll_replicate_nil (n : Nat) (s : Str) : scanAll (List.replicate n []) s = s := by
  induction n with
  | zero => rfl
  | succ n ih => simp [List.replicate_succ, scanAll, scan_nil_rules, ih]

end Nisaba
