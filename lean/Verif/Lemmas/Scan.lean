import Verif.Lemmas.Partition
/-! The executable scanners compute `CDRewrite`. -/
namespace Nisaba

/-- Every left-hand side is non-empty. -/
def LhsNonempty (rs : List Rule) : Prop := ∀ p ∈ rs, p.1 ≠ []

/-- At most one rule is applicable at any position. -/
def DetAt (C : Ctx) (rs : List Rule) : Prop :=
  ∀ (out rest : Str) (p q : Rule) (rest₁ rest₂ : Str), Applicable (Rel.stringMap rs) C out rest p.1 p.2 rest₁ →
    Applicable (Rel.stringMap rs) C out rest q.1 q.2 rest₂ → p = q

/-- No left-hand side is a prefix of another one. -/
def PrefixDet (rs : List Rule) : Prop := ∀ p ∈ rs, ∀ q ∈ rs, p.1 <+: q.1 → p = q

theorem PrefixDet.detAt {rs : List Rule} (h : PrefixDet rs) (C : Ctx) : DetAt C rs := by
  intro out rest p q r₁ r₂ hp hq
  obtain ⟨hp, e₁, _⟩ := hp
  obtain ⟨hq, e₂, _⟩ := hq
  have h1 : p.1 <+: rest := ⟨r₁, e₁.symm⟩
  have h2 : q.1 <+: rest := ⟨r₂, e₂.symm⟩
  rcases Nat.le_total p.1.length q.1.length with hl | hl
  · exact h p hp q hq (List.prefix_of_prefix_length_le h1 h2 hl)
  · exact (h q hq p hp (List.prefix_of_prefix_length_le h2 h1 hl)).symm

theorem findRuleC_some {C : BCtx} {out rest : Str} {rs : List Rule} {p : Rule}
    (h : findRuleC C out rest rs = some p) :
    Applicable (Rel.stringMap rs) C.toCtx out rest p.1 p.2 (rest.drop p.1.length) := by
  induction rs with
  | nil => simp [findRuleC] at h
  | cons r rs ih =>
    simp only [findRuleC, Bool.cond_eq_ite] at h
    split at h
    · rename_i hc
      simp only [Option.some.injEq] at h
      subst h
      simp only [Bool.and_eq_true, isPre_iff] at hc
      obtain ⟨⟨t, ht⟩, hl, hr⟩ := hc
      refine ⟨by simp [Rel.stringMap], ?_, hl, hr⟩
      rw [← ht, List.drop_left]
    · obtain ⟨h1, h2⟩ := ih h
      exact ⟨List.mem_cons_of_mem _ h1, h2⟩

theorem findRuleC_none {C : BCtx} {out rest : Str} {rs : List Rule}
    (h : findRuleC C out rest rs = none) (l r rest' : Str) :
    ¬ Applicable (Rel.stringMap rs) C.toCtx out rest l r rest' := by
  induction rs with
  | nil => rintro ⟨h, _⟩; simp [Rel.stringMap] at h
  | cons p rs ih =>
    simp only [findRuleC, Bool.cond_eq_ite] at h
    split at h
    · simp at h
    · rename_i hc
      rintro ⟨hm, he, hl, hr⟩
      rcases List.mem_cons.1 hm with rfl | hm
      · apply hc
        simp only [Bool.and_eq_true, isPre_iff]
        refine ⟨⟨rest', he.symm⟩, hl, ?_⟩
        rw [he, List.drop_left]; exact hr
      · exact ih h ⟨hm, he, hl, hr⟩

theorem scanC_drop (C : BCtx) (rs : List Rule) (out : Str) (k : Nat) (s : Str) :
    scanC C rs out k s = scanC C rs out 0 (s.drop k) := by
  induction k generalizing s with
  | zero => simp
  | succ k ih =>
    cases s with
    | nil => simp [scanC]
    | cons c s => simp [scanC, ih]

theorem scanC_cons_some {C : BCtx} {rs : List Rule} {out : Str} {c : Nat} {s : Str} {p : Rule}
    (hne : LhsNonempty rs) (h : findRuleC C out (c :: s) rs = some p) :
    scanC C rs out 0 (c :: s) = scanC C rs (out ++ p.2) 0 ((c :: s).drop p.1.length) := by
  have hm := (findRuleC_some h).1
  have hl : p.1 ≠ [] := hne p hm
  simp only [scanC, h]
  rw [scanC_drop]
  congr 1
  cases hp : p.1 with
  | nil => exact absurd hp hl
  | cons a as => simp

theorem cd_exists {C : BCtx} {rs : List Rule} (hne : LhsNonempty rs) (out s : Str) :
    CDRewrite (Rel.stringMap rs) C.toCtx out s (scanC C rs out 0 s) := by
  generalize hn : s.length = n
  induction n using Nat.strongRecOn generalizing s out with
  | _ n ih =>
    cases s with
    | nil => simp only [scanC]; exact .done out
    | cons c s =>
      cases hf : findRuleC C out (c :: s) rs with
      | some p =>
        rw [scanC_cons_some hne hf]
        have ha := findRuleC_some hf
        refine .apply ha (ih _ ?_ _ _ rfl)
        have : p.1.length ≠ 0 := fun e => hne p ha.1 (List.length_eq_zero_iff.1 e)
        simp only [List.length_drop, List.length_cons] at *
        omega
      | none =>
        simp only [scanC, hf]
        refine .copy (findRuleC_none hf) (ih _ ?_ _ _ rfl)
        simp at hn; omega

theorem cd_eq {C : BCtx} {rs : List Rule} (hne : LhsNonempty rs) (hd : DetAt C.toCtx rs)
    {out s fin : Str} (h : CDRewrite (Rel.stringMap rs) C.toCtx out s fin) :
    fin = scanC C rs out 0 s := by
  induction h with
  | done out => simp [scanC]
  | @apply out rest l r rest' fin ha k ih =>
    cases rest with
    | nil =>
      exfalso
      have : l = [] := by
        have := ha.2.1
        cases l with
        | nil => rfl
        | cons a as => simp at this
      exact hne (l, r) ha.1 this
    | cons c s =>
      cases hf : findRuleC C out (c :: s) rs with
      | some p =>
        have hp := findRuleC_some hf
        have e : (l, r) = p := hd out (c :: s) (l, r) p rest' _ ha hp
        rw [scanC_cons_some hne hf, ih]
        subst e
        rw [ha.2.1]
        simp
      | none => exact absurd ha (findRuleC_none hf l r rest')
  | @copy out rest fin c hno k ih =>
    cases hf : findRuleC C out (c :: rest) rs with
    | some p => exact absurd (findRuleC_some hf) (hno _ _ _)
    | none => simp only [scanC, hf, ih]

/-- Rewriting is the graph of the scanner. -/
theorem cd_iff {C : BCtx} {rs : List Rule} (hne : LhsNonempty rs) (hd : DetAt C.toCtx rs)
    {out s fin : Str} :
    CDRewrite (Rel.stringMap rs) C.toCtx out s fin ↔ fin = scanC C rs out 0 s :=
  ⟨cd_eq hne hd, fun h => h ▸ cd_exists hne out s⟩

/-! ### No contexts -/

def BCtx.free : BCtx := ⟨fun _ => true, fun _ => true⟩

theorem BCtx.free_toCtx : BCtx.free.toCtx = Ctx.free := by
  simp [BCtx.free, BCtx.toCtx, Ctx.free]

theorem findRuleC_free (out rest : Str) (rs : List Rule) :
    findRuleC BCtx.free out rest rs = findRule rs rest := by
  induction rs with
  | nil => rfl
  | cons p rs ih =>
    simp only [findRuleC, findRule, ih]
    simp [BCtx.free]

theorem scanC_free (rs : List Rule) (out : Str) (k : Nat) (s : Str) :
    scanC BCtx.free rs out k s = out ++ scan rs k s := by
  induction s generalizing out k with
  | nil => simp [scanC, scan]
  | cons c s ih =>
    cases k with
    | succ k => simp [scanC, scan, ih]
    | zero =>
      simp only [scanC, scan, findRuleC_free]
      cases findRule rs (c :: s) <;> simp [ih]

theorem cd_free_iff {rs : List Rule} (hne : LhsNonempty rs) (hd : PrefixDet rs) {out s fin : Str} :
    CDRewrite (Rel.stringMap rs) Ctx.free out s fin ↔ fin = out ++ scan rs 0 s := by
  rw [← BCtx.free_toCtx, cd_iff hne (by rw [BCtx.free_toCtx]; exact hd.detAt _), scanC_free]

/-! ### Alphabet -/

/-- All characters of a rule list are in `σ`. -/
def RulesOver (σ : Nat → Prop) (rs : List Rule) : Prop := ∀ p ∈ rs, Over σ p.1 ∧ Over σ p.2

/-- Only the right-hand sides matter for the alphabet of the output. -/
def RhsOver (σ : Nat → Prop) (rs : List Rule) : Prop := ∀ p ∈ rs, Over σ p.2

theorem Over.append {σ : Nat → Prop} {a b : Str} (ha : Over σ a) (hb : Over σ b) :
    Over σ (a ++ b) := by
  intro c hc
  rcases List.mem_append.1 hc with h | h
  · exact ha c h
  · exact hb c h

theorem Over.drop {σ : Nat → Prop} {a : Str} (n : Nat) (ha : Over σ a) : Over σ (a.drop n) :=
  fun c hc => ha c (List.mem_of_mem_drop hc)

theorem over_scanC {σ : Nat → Prop} {C : BCtx} {rs : List Rule} (hr : RhsOver σ rs)
    (out : Str) (k : Nat) (s : Str) (ho : Over σ out) (hs : Over σ s) :
    Over σ (scanC C rs out k s) := by
  induction s generalizing out k with
  | nil => simpa [scanC] using ho
  | cons c s ih =>
    have hs' : Over σ s := fun d hd => hs d (List.mem_cons_of_mem _ hd)
    cases k with
    | succ k => simpa only [scanC] using ih out k ho hs'
    | zero =>
      simp only [scanC]
      cases hf : findRuleC C out (c :: s) rs with
      | some p =>
        exact ih _ _ (ho.append (hr p (findRuleC_some hf).1)) hs'
      | none =>
        refine ih _ _ (ho.append ?_) hs'
        intro d hd
        simp at hd; subst hd
        exact hs d (by simp)

theorem over_scan {σ : Nat → Prop} {rs : List Rule} (hr : RhsOver σ rs) (k : Nat) (s : Str)
    (hs : Over σ s) : Over σ (scan rs k s) := by
  have := over_scanC (C := BCtx.free) hr [] k s (by intro c hc; simp at hc) hs
  simpa [scanC_free] using this

/-- `Rewrite` with decidable contexts is a total function on strings over the alphabet. -/
theorem rewriteC_iff {σ : Nat → Prop} {C : BCtx} {rs : List Rule} (hne : LhsNonempty rs)
    (hd : DetAt C.toCtx rs) (hr : RhsOver σ rs) {s t : Str} :
    Rewrite (Rel.stringMap rs) σ C.toCtx s t ↔ Over σ s ∧ t = scanC C rs [] 0 s := by
  unfold Rewrite
  rw [cd_iff hne hd]
  constructor
  · rintro ⟨h1, _, h3⟩; exact ⟨h1, h3⟩
  · rintro ⟨h1, h3⟩
    exact ⟨h1, h3 ▸ over_scanC hr [] 0 s (by intro c hc; simp at hc) h1, h3⟩

theorem rewrite_iff {σ : Nat → Prop} {rs : List Rule} (hne : LhsNonempty rs)
    (hd : PrefixDet rs) (hr : RhsOver σ rs) {s t : Str} :
    Rewrite (Rel.stringMap rs) σ Ctx.free s t ↔ Over σ s ∧ t = scan rs 0 s := by
  have := rewriteC_iff (σ := σ) (C := BCtx.free) hne
    (by rw [BCtx.free_toCtx]; exact hd.detAt _) hr (s := s) (t := t)
  rw [BCtx.free_toCtx, scanC_free] at this
  simpa using this

/-! ### Cascades -/

theorem scanAll_append (a b : List (List Rule)) (s : Str) :
    scanAll (a ++ b) s = scanAll b (scanAll a s) := by
  induction a generalizing s with
  | nil => rfl
  | cons x xs ih => simp [scanAll, ih]

theorem over_scanAll {σ : Nat → Prop} {sts : List (List Rule)}
    (hr : ∀ st ∈ sts, RhsOver σ st) {s : Str} (hs : Over σ s) : Over σ (scanAll sts s) := by
  induction sts generalizing s with
  | nil => exact hs
  | cons st sts ih =>
    exact ih (fun x hx => hr x (List.mem_cons_of_mem _ hx))
      (over_scan (hr st (by simp)) 0 s hs)

theorem rewriteAndCompose_iff {σ : Nat → Prop} {sts : List (List Rule)}
    (hne : ∀ st ∈ sts, LhsNonempty st) (hd : ∀ st ∈ sts, PrefixDet st)
    (hr : ∀ st ∈ sts, RhsOver σ st) {s t : Str} :
    rewriteAndCompose sts σ s t ↔ Over σ s ∧ t = scanAll sts s := by
  unfold rewriteAndCompose
  induction sts generalizing s with
  | nil =>
    simp only [List.map_nil, composeRels, Rel.sigmaStar, scanAll]
    constructor
    · rintro ⟨h, h'⟩; exact ⟨h', h.symm⟩
    · rintro ⟨h, h'⟩; exact ⟨h'.symm, h⟩
  | cons st sts ih =>
    have e1 := fun s t => rewrite_iff (σ := σ) (hne st (by simp)) (hd st (by simp))
      (hr st (by simp)) (s := s) (t := t)
    cases sts with
    | nil => simp [composeRels, scanAll, e1]
    | cons st' sts =>
      have := fun s => ih (s := s) (fun x hx => hne x (List.mem_cons_of_mem _ hx))
        (fun x hx => hd x (List.mem_cons_of_mem _ hx))
        (fun x hx => hr x (List.mem_cons_of_mem _ hx))
      simp only [List.map_cons, composeRels, Rel.comp] at this ⊢
      constructor
      · rintro ⟨y, hy, hz⟩
        obtain ⟨h1, h2⟩ := (e1 _ _).1 hy
        obtain ⟨_, h4⟩ := (this y).1 hz
        subst h2
        exact ⟨h1, by simpa [scanAll] using h4⟩
      · rintro ⟨h1, h2⟩
        refine ⟨scan st 0 s, (e1 _ _).2 ⟨h1, rfl⟩, (this _).2 ⟨?_, ?_⟩⟩
        · exact over_scan (hr st (by simp)) 0 s h1
        · simpa [scanAll] using h2

/-- The sets of a successful split. -/
theorem GoodSplit.prefixDet {g : List Rule} {sets : List (List Rule)} (G : GoodSplit g sets) :
    ∀ st ∈ sets, PrefixDet st := by
  intro st hst p hp q hq hpre
  by_cases h : p = q
  · exact h
  · exact absurd hpre.isInfix (G.free st hst p hp q hq h)

theorem goodSplit_of_ok {rules : List Rule} {sets : List (List Rule)}
    (h : partitionUnordered rules = .ok sets) : GoodSplit (nodes rules) sets := peel_ok h

theorem mem_sets_rules {rules : List Rule} {sets : List (List Rule)}
    (h : partitionUnordered rules = .ok sets) {st : List Rule} (hst : st ∈ sets) {p : Rule}
    (hp : p ∈ st) : p ∈ rules :=
  mem_nodes.1 (((goodSplit_of_ok h).mem p).1 (List.mem_flatten.2 ⟨st, hst, hp⟩))

/-- A compiled rule file is the graph of `applyRules` on strings over the alphabet. -/
theorem fstFromRules_iff {rules : List Rule} {σ : Nat → Prop} {R : Rel}
    (hne : LhsNonempty rules) (hr : RhsOver σ rules) (h : fstFromRules rules σ = some R)
    {s t : Str} : R s t ↔ Over σ s ∧ t = applyRules rules s := by
  unfold fstFromRules at h
  unfold applyRules stages
  cases hp : partitionUnordered rules with
  | ok sets =>
    rw [hp] at h
    simp only [Option.some.injEq] at h
    subst h
    exact rewriteAndCompose_iff
      (fun st hst p hp' => hne p (mem_sets_rules hp hst hp'))
      (goodSplit_of_ok hp).prefixDet
      (fun st hst p hp' => hr p (mem_sets_rules hp hst hp'))
  | valueError => rw [hp] at h; simp at h
  | fuel => rw [hp] at h; simp at h

end Nisaba
