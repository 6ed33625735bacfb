import Verif.Model.Abjad
import Verif.Lemmas.VisualFst
/-! Helper lemmas about the abjad grammars. -/
set_option maxRecDepth 100000
namespace Nisaba.Abjad
open Nisaba

/-! ## Contexts that agree on strings over the alphabet -/

theorem cd_congr {τ : Rel} {σ : Nat → Prop} {C D : Ctx} (hτ : ∀ l r, τ l r → Over σ r)
    (hl : ∀ x, Over σ x → (C.left x ↔ D.left x)) (hr : ∀ x, Over σ x → (C.right x ↔ D.right x))
    {out s fin : Str} (h : CDRewrite τ C out s fin) (ho : Over σ out) (hs : Over σ s) :
    CDRewrite τ D out s fin := by
  induction h with
  | done out => exact .done _
  | @apply out rest l r rest' fin h k ih =>
    obtain ⟨h1, rfl, h3, h4⟩ := h
    have hs' : Over σ rest' := fun c hc => hs c (by simp [hc])
    exact .apply ⟨h1, rfl, (hl _ ho).1 h3, (hr _ hs').1 h4⟩ (ih (ho.append (hτ _ _ h1)) hs')
  | @copy out rest fin c h k ih =>
    refine .copy ?_ (ih (ho.append fun d hd => ?_) fun d hd => hs d (by simp [hd]))
    · rintro l r rest' ⟨h1, h2, h3, h4⟩
      have : Over σ rest' := fun d hd => hs d (by rw [h2]; simp [hd])
      exact h l r rest' ⟨h1, h2, (hl _ ho).2 h3, (hr _ this).2 h4⟩
    · simp at hd; subst hd; exact hs d (by simp)

theorem rewrite_congr {τ : Rel} {σ : Nat → Prop} {C D : Ctx} (hτ : ∀ l r, τ l r → Over σ r)
    (hl : ∀ x, Over σ x → (C.left x ↔ D.left x)) (hr : ∀ x, Over σ x → (C.right x ↔ D.right x))
    (s t : Str) : Rewrite τ σ C s t ↔ Rewrite τ σ D s t := by
  have h0 : Over σ [] := fun c hc => by simp at hc
  constructor
  · rintro ⟨a, b, c⟩; exact ⟨a, b, cd_congr hτ hl hr c h0 a⟩
  · rintro ⟨a, b, c⟩
    exact ⟨a, b, cd_congr hτ (fun x hx => (hl x hx).symm) (fun x hx => (hr x hx).symm) c h0 a⟩

/-! ## The three positional rewrites -/

def nonfinC : BCtx := ⟨fun _ => true, fun r => !r.isEmpty⟩
def finC : BCtx := ⟨fun o => !o.isEmpty, fun r => r.isEmpty⟩
def isoC : BCtx := ⟨fun o => o.isEmpty, fun r => r.isEmpty⟩

/-- All characters but the last. -/
def nonfin (rows : List Rule) : Str → Str
  | [] => []
  | [c] => [c]
  | c :: d :: s => charMap rows c ++ nonfin rows (d :: s)

/-- The last character. -/
def finFrom (rows : List Rule) : Str → Str
  | [] => []
  | [c] => charMap rows c
  | c :: d :: s => c :: finFrom rows (d :: s)

/-- The last character of strings of at least two. -/
def fin (rows : List Rule) : Str → Str
  | [] => []
  | c :: s => c :: finFrom rows s

/-- The whole string. -/
def iso : List Rule → Str → Str
  | [], s => s
  | p :: rows, s => bif strEq p.1 s then p.2 else iso rows s

theorem startsIn_sigma {σ : Nat → Prop} {x : Str} (h : Over σ x) :
    startsIn (sigmaLang σ) x ↔ (!x.isEmpty) = true := by
  cases x with
  | nil => simp [startsIn, sigmaLang]
  | cons c x =>
    simp only [List.isEmpty_cons, Bool.not_false, iff_true]
    exact ⟨[c], x, rfl, c, h c (by simp), rfl⟩

theorem endsIn_sigma {σ : Nat → Prop} {x : Str} (h : Over σ x) :
    endsIn (sigmaLang σ) x ↔ (!x.isEmpty) = true := by
  rcases List.eq_nil_or_concat x with rfl | ⟨y, c, rfl⟩
  · simp [endsIn, sigmaLang]
  · exact ⟨fun _ => by simp, fun _ => ⟨y, [c], by simp, c, h c (by simp), rfl⟩⟩

theorem findRuleC_single {C : BCtx} {rows : List Rule} (h1 : ∀ p ∈ rows, p.1.length = 1)
    (out : Str) (c : Nat) (s : Str) :
    findRuleC C out (c :: s) rows =
      if C.left out = true ∧ C.right s = true then findRule rows [c] else none := by
  induction rows with
  | nil => simp [findRuleC, findRule]
  | cons p rows ih =>
    have hl := h1 p (by simp)
    have hd : (c :: s).drop p.1.length = s := by rw [hl]; rfl
    have e : isPre p.1 (c :: s) = isPre p.1 [c] := by
      match hp : p.1, hl with
      | [a], _ => simp [isPre]
    simp only [findRuleC, findRule, hd, e, ih fun q hq => h1 q (List.mem_cons_of_mem _ hq)]
    cases C.left out <;> cases C.right s <;> cases isPre p.1 [c] <;> simp

theorem scanC_nonfin {rows : List Rule} (h1 : ∀ p ∈ rows, p.1.length = 1) (out s : Str) :
    scanC nonfinC rows out 0 s = out ++ nonfin rows s := by
  induction s generalizing out with
  | nil => simp [scanC, nonfin]
  | cons c s ih =>
    rw [scanC, findRuleC_single h1]
    cases s with
    | nil => simp [nonfinC, nonfin, scanC]
    | cons d s =>
      simp only [nonfinC, List.isEmpty_cons, Bool.not_false, and_self, if_true, nonfin, charMap]
      cases hf : findRule rows [c] with
      | none => simp only; rw [← nonfinC, ih]; simp
      | some p =>
        simp only [h1 p (findRule_some hf).1]
        rw [← nonfinC, ih]; simp

theorem scanC_finFrom {rows : List Rule} (h1 : ∀ p ∈ rows, p.1.length = 1) (out s : Str)
    (ho : out ≠ []) : scanC finC rows out 0 s = out ++ finFrom rows s := by
  induction s generalizing out with
  | nil => simp [scanC, finFrom]
  | cons c s ih =>
    rw [scanC, findRuleC_single h1]
    cases s with
    | nil =>
      have : (!out.isEmpty) = true := by simp [ho]
      simp only [finC, List.isEmpty_nil, this, and_self, if_true, finFrom, charMap]
      cases hf : findRule rows [c] with
      | none => simp [scanC]
      | some p => simp [h1 p (findRule_some hf).1, scanC]
    | cons d s =>
      simp only [finC, List.isEmpty_cons, Bool.false_eq_true, and_false, if_false]
      rw [← finC, ih _ (by simp)]
      simp [finFrom]

theorem scanC_fin {rows : List Rule} (h1 : ∀ p ∈ rows, p.1.length = 1) (s : Str) :
    scanC finC rows [] 0 s = fin rows s := by
  cases s with
  | nil => simp [scanC, fin]
  | cons c s =>
    rw [scanC, findRuleC_single h1]
    simp only [finC, List.isEmpty_nil, Bool.not_true, Bool.false_eq_true, false_and, if_false]
    rw [← finC, scanC_finFrom h1 _ _ (by simp)]
    simp [fin]

theorem isoC_copy (rows : List Rule) (out s : Str) (ho : out ≠ []) :
    scanC isoC rows out 0 s = out ++ s := by
  induction s generalizing out with
  | nil => simp [scanC]
  | cons c s ih =>
    have : findRuleC isoC out (c :: s) rows = none := by
      cases hf : findRuleC isoC out (c :: s) rows with
      | none => rfl
      | some p =>
        have := (findRuleC_some hf).2.2.1
        simp [isoC, BCtx.toCtx] at this
        exact absurd this ho
    simp only [scanC, this]
    rw [ih _ (by simp)]; simp

theorem isPre_isEmpty (a s : Str) : (isPre a s && (s.drop a.length).isEmpty) = strEq a s := by
  rw [Bool.eq_iff_iff]
  simp only [Bool.and_eq_true, isPre_iff, strEq_iff, List.isEmpty_iff]
  constructor
  · rintro ⟨⟨t, rfl⟩, h⟩
    rw [List.drop_left] at h; simp [h]
  · rintro rfl; simp

theorem findRuleC_iso (rows : List Rule) (s : Str) :
    findRuleC isoC [] s rows = rows.find? fun p => strEq p.1 s := by
  induction rows with
  | nil => rfl
  | cons p rows ih =>
    simp only [findRuleC, ih, List.find?_cons]
    have : (isPre p.1 s && (isoC.left [] && isoC.right (s.drop p.1.length))) = strEq p.1 s := by
      rw [← isPre_isEmpty]; simp [isoC]
    rw [this]
    cases strEq p.1 s <;> rfl

theorem iso_eq (rows : List Rule) (s : Str) :
    iso rows s = match rows.find? (fun p => strEq p.1 s) with | some p => p.2 | none => s := by
  induction rows with
  | nil => rfl
  | cons p rows ih =>
    simp only [iso, List.find?_cons]
    cases strEq p.1 s <;> simp [ih]

theorem scanC_iso {rows : List Rule} (hne : LhsNonempty rows) (s : Str) :
    scanC isoC rows [] 0 s = iso rows s := by
  rw [iso_eq]
  cases s with
  | nil =>
    have : (rows.find? fun p => strEq p.1 []) = none := by
      rw [List.find?_eq_none]
      intro p hp h
      exact hne p hp (strEq_iff.1 h)
    rw [this]; simp [scanC]
  | cons c s =>
    rw [scanC, findRuleC_iso]
    cases hf : rows.find? fun p => strEq p.1 (c :: s) with
    | none => simp only; rw [isoC_copy _ _ _ (by simp)]; simp
    | some p =>
      have h1 : p.1 = c :: s := strEq_iff.1 (List.find?_some (p := fun p : Rule => strEq p.1 (c :: s)) hf)
      simp only [h1, scanC_drop _ _ _ _ s, List.length_cons, Nat.add_sub_cancel, List.drop_length,
        List.nil_append]
      rw [scanC]

/-- Rows with equal left-hand sides are equal. -/
def lhsDetB (rows : List Rule) : Bool :=
  rows.all fun p => rows.all fun q => bif strEq p.1 q.1 then ruleEq p q else true

theorem lhsDetB_iff {rows : List Rule} (h : lhsDetB rows = true) :
    ∀ p ∈ rows, ∀ q ∈ rows, p.1 = q.1 → p = q := by
  intro p hp q hq he
  simp only [lhsDetB, List.all_eq_true] at h
  have := h p hp q hq
  rw [strEq_iff.2 he, cond_true, ruleEq_iff] at this
  exact this

theorem prefixDet_of_single {rows : List Rule} (h1 : ∀ p ∈ rows, p.1.length = 1)
    (hd : ∀ p ∈ rows, ∀ q ∈ rows, p.1 = q.1 → p = q) : PrefixDet rows := by
  intro p hp q hq h
  exact hd p hp q hq (h.eq_of_length (by rw [h1 p hp, h1 q hq]))

theorem nonempty_of_single {rows : List Rule} (h1 : ∀ p ∈ rows, p.1.length = 1) :
    LhsNonempty rows := by
  intro p hp h; have := h1 p hp; simp [h] at this

theorem nonfinal_graph {rows : List Rule} {σ : Nat → Prop} (h1 : ∀ p ∈ rows, p.1.length = 1)
    (hd : ∀ p ∈ rows, ∀ q ∈ rows, p.1 = q.1 → p = q) (hσ : RhsOver σ rows) :
    Graph σ (nonfinalRewrite rows σ) (nonfin rows) := by
  intro s t
  unfold nonfinalRewrite
  rw [rewrite_congr (τ := Rel.stringMap rows) (D := nonfinC.toCtx) (fun l r h => hσ (l, r) h)
    (fun x _ => by simp [nonfinC, BCtx.toCtx]) (fun x hx => startsIn_sigma hx),
    rewriteC_iff (nonempty_of_single h1) ((prefixDet_of_single h1 hd).detAt _) hσ,
    scanC_nonfin h1]
  simp

theorem final_graph {rows : List Rule} {σ : Nat → Prop} (h1 : ∀ p ∈ rows, p.1.length = 1)
    (hd : ∀ p ∈ rows, ∀ q ∈ rows, p.1 = q.1 → p = q) (hσ : RhsOver σ rows) :
    Graph σ (finalRewrite rows σ) (fin rows) := by
  intro s t
  unfold finalRewrite
  rw [rewrite_congr (τ := Rel.stringMap rows) (D := finC.toCtx) (fun l r h => hσ (l, r) h)
    (fun x hx => endsIn_sigma hx) (fun x _ => by simp [finC, BCtx.toCtx]),
    rewriteC_iff (nonempty_of_single h1) ((prefixDet_of_single h1 hd).detAt _) hσ, scanC_fin h1]

theorem isolated_graph {rows : List Rule} {σ : Nat → Prop} (hne : LhsNonempty rows)
    (hd : ∀ p ∈ rows, ∀ q ∈ rows, p.1 = q.1 → p = q) (hσ : RhsOver σ rows) :
    Graph σ (isolatedRewrite rows σ) (iso rows) := by
  intro s t
  unfold isolatedRewrite
  have hdet : DetAt isoC.toCtx rows := by
    rintro out rest p q r₁ r₂ ⟨a1, a2, a3, a4⟩ ⟨b1, b2, b3, b4⟩
    simp only [isoC, BCtx.toCtx, List.isEmpty_iff] at a4 b4
    subst a4; subst b4
    exact hd p a1 q b1 (by simpa using a2.symm.trans b2)
  rw [rewrite_congr (τ := Rel.stringMap rows) (D := isoC.toCtx) (fun l r h => hσ (l, r) h)
    (fun x _ => by simp [isoC, BCtx.toCtx]) (fun x _ => by simp [isoC, BCtx.toCtx]),
    rewriteC_iff hne hdet hσ, scanC_iso hne]

theorem over_charMap {σ τ : Nat → Prop} {rows : List Rule} (hσ : RhsOver τ rows) {c : Nat}
    (hc : (∀ p ∈ rows, ¬ p.1 <+: [c]) → τ c) : Over τ (charMap rows c) := by
  intro d hd
  rcases charMap_mem hd with ⟨p, hp, _, hd⟩ | ⟨rfl, h⟩
  · exact hσ p hp d hd
  · exact hc h

theorem over_nonfin {σ : Nat → Prop} {rows : List Rule} (hσ : RhsOver σ rows) :
    MapsOver σ σ (nonfin rows) := by
  intro s hs
  induction s with
  | nil => exact hs
  | cons c s ih =>
    cases s with
    | nil => exact hs
    | cons d s =>
      rw [nonfin]
      exact (over_charMap (σ := σ) hσ fun _ => hs c (by simp)).append
        (ih fun x hx => hs x (List.mem_cons_of_mem _ hx))

theorem over_finFrom {σ : Nat → Prop} {rows : List Rule} (hσ : RhsOver σ rows) :
    MapsOver σ σ (finFrom rows) := by
  intro s hs
  induction s with
  | nil => exact hs
  | cons c s ih =>
    cases s with
    | nil => exact over_charMap (σ := σ) hσ fun _ => hs c (by simp)
    | cons d s =>
      rw [finFrom]
      exact Over.append (a := [c]) (fun x hx => hs x (by simp at hx; simp [hx]))
        (ih fun x hx => hs x (List.mem_cons_of_mem _ hx))

theorem over_fin {σ : Nat → Prop} {rows : List Rule} (hσ : RhsOver σ rows) :
    MapsOver σ σ (fin rows) := by
  intro s hs
  cases s with
  | nil => exact hs
  | cons c s =>
    exact Over.append (a := [c]) (fun x hx => hs x (by simp at hx; simp [hx]))
      (over_finFrom hσ s fun x hx => hs x (List.mem_cons_of_mem _ hx))

theorem over_iso {σ : Nat → Prop} {rows : List Rule} (hσ : RhsOver σ rows) :
    MapsOver σ σ (iso rows) := by
  intro s hs
  rw [iso_eq]
  cases hf : rows.find? fun p => strEq p.1 s with
  | none => exact hs
  | some p => exact hσ p (List.mem_of_find?_eq_some hf)

/-! ## Tables with one character per left-hand side, in increasing order -/

/-- Keys are single characters above `k`, strictly increasing. -/
def increasing : Nat → List Rule → Bool
  | _, [] => true
  | k, ([c], _) :: rows => Nat.blt k c && increasing c rows
  | _, _ :: _ => false

theorem increasing_lt {k : Nat} {rows : List Rule} (h : increasing k rows = true) :
    ∀ p ∈ rows, ∃ c, k < c ∧ p.1 = [c] := by
  induction rows generalizing k with
  | nil => simp
  | cons q rows ih =>
    obtain ⟨q1, q2⟩ := q
    match q1, h with
    | [c], h =>
      simp only [increasing, Bool.and_eq_true, Nat.blt_eq] at h
      intro p hp
      rcases List.mem_cons.1 hp with rfl | hp
      · exact ⟨c, h.1, rfl⟩
      · obtain ⟨d, hd, he⟩ := ih h.2 p hp
        exact ⟨d, by omega, he⟩

theorem increasing_single {k : Nat} {rows : List Rule} (h : increasing k rows = true) :
    ∀ p ∈ rows, p.1.length = 1 := by
  intro p hp; obtain ⟨c, _, e⟩ := increasing_lt h p hp; simp [e]

theorem increasing_det {k : Nat} {rows : List Rule} (h : increasing k rows = true) :
    ∀ p ∈ rows, ∀ q ∈ rows, p.1 = q.1 → p = q := by
  induction rows generalizing k with
  | nil => simp
  | cons r rows ih =>
    obtain ⟨r1, r2⟩ := r
    match r1, h with
    | [c], h =>
      simp only [increasing, Bool.and_eq_true, Nat.blt_eq] at h
      have hlt := increasing_lt h.2
      intro p hp q hq he
      rcases List.mem_cons.1 hp with rfl | hp <;> rcases List.mem_cons.1 hq with rfl | hq
      · rfl
      · obtain ⟨d, hd, e⟩ := hlt q hq; rw [e] at he; simp at he; omega
      · obtain ⟨d, hd, e⟩ := hlt p hp; rw [e] at he; simp at he; omega
      · exact ih h.2 p hp q hq he

theorem split_of_single {rules : List Rule} (h1 : ∀ p ∈ rules, p.1.length = 1)
    (hd : ∀ p ∈ rules, ∀ q ∈ rules, p.1 = q.1 → p = q) (hne : rules ≠ []) :
    partitionUnordered rules = .ok [leaves (nodes rules)] ∧
      (∀ p, p ∈ leaves (nodes rules) ↔ p ∈ rules) := by
  have hl : ∀ p, p ∈ leaves (nodes rules) ↔ p ∈ rules := by
    intro p
    rw [mem_leaves, mem_nodes]
    constructor
    · exact fun h => h.1
    · refine fun h => ⟨h, ?_⟩
      rintro q hq ⟨hne, hin⟩
      refine hne (hd p h q (mem_nodes.1 hq) (hin.eq_of_length ?_))
      rw [h1 p h, h1 q (mem_nodes.1 hq)]
  refine ⟨?_, hl⟩
  obtain ⟨p, hp⟩ := List.exists_mem_of_ne_nil _ hne
  have hnn : nodes rules ≠ [] := fun h => by have := mem_nodes.2 hp; simp [h] at this
  have hleaf : leaves (nodes rules) ≠ [] := fun h => by have := (hl p).2 hp; simp [h] at this
  have hrem : remaining (nodes rules) = [] := by
    rw [List.eq_nil_iff_forall_not_mem]
    intro q hq
    have := mem_remaining.1 hq
    exact this.2 ((hl q).2 (mem_nodes.1 this.1))
  unfold partitionUnordered
  obtain ⟨n, hn⟩ : ∃ n, (nodes rules).length = n + 1 :=
    ⟨_, (Nat.succ_pred_eq_of_pos (List.length_pos_iff.2 hnn)).symm⟩
  rw [hn, peel_succ_cons _ _ hnn, if_neg hleaf, hrem]
  cases n <;> rfl

theorem findRule_same {a b : List Rule} (hm : ∀ p, p ∈ a ↔ p ∈ b)
    (h1 : ∀ p ∈ b, p.1.length = 1) (hd : ∀ p ∈ b, ∀ q ∈ b, p.1 = q.1 → p = q) (c : Nat) :
    findRule a [c] = findRule b [c] := by
  have key : ∀ {p : Rule}, p ∈ b → p.1 <+: [c] → p.1 = [c] := fun hp h =>
    h.eq_of_length (by rw [h1 _ hp]; rfl)
  cases ha : findRule a [c] with
  | none =>
    cases hb : findRule b [c] with
    | none => rfl
    | some p =>
      exact absurd (findRule_some hb).2 (findRule_none ha p ((hm p).2 (findRule_some hb).1))
  | some p =>
    have hp := (hm p).1 (findRule_some ha).1
    cases hb : findRule b [c] with
    | none => exact absurd (findRule_some ha).2 (findRule_none hb p hp)
    | some q =>
      rw [hd p hp q (findRule_some hb).1]
      rw [key hp (findRule_some ha).2, key (findRule_some hb).1 (findRule_some hb).2]

theorem applyRules_single {rules : List Rule} (h1 : ∀ p ∈ rules, p.1.length = 1)
    (hd : ∀ p ∈ rules, ∀ q ∈ rules, p.1 = q.1 → p = q) (s : Str) :
    applyRules rules s = s.flatMap (charMap rules) := by
  by_cases hne : rules = []
  · subst hne
    have : charMap [] = fun c => [c] := by funext c; rfl
    rw [this]
    induction s with
    | nil => rfl
    | cons c s ih =>
      rw [List.flatMap_cons, ← ih]; rfl
  · obtain ⟨h, hm⟩ := split_of_single h1 hd hne
    have : applyRules rules s = scan (leaves (nodes rules)) 0 s := by
      simp [applyRules, stages, h, scanAll]
    rw [this, scan_singleLhs fun p hp => h1 p ((hm p).1 hp)]
    congr 1
    funext c
    simp only [charMap, findRule_same hm h1 hd]

theorem single_graph {rules : List Rule} {σ : Nat → Prop} (h1 : ∀ p ∈ rules, p.1.length = 1)
    (hd : ∀ p ∈ rules, ∀ q ∈ rules, p.1 = q.1 → p = q) (hne : rules ≠ [])
    (hσ : RhsOver σ rules) :
    ∃ R, fstFromRules rules σ = some R ∧ Graph σ R (fun s => s.flatMap (charMap rules)) := by
  obtain ⟨h, hm⟩ := split_of_single h1 hd hne
  have e : fstFromRules rules σ = some (rewriteAndCompose [leaves (nodes rules)] σ) := by
    simp [fstFromRules, h]
  refine ⟨_, e, fun s t => ?_⟩
  rw [fstFromRules_iff (nonempty_of_single h1) hσ e, applyRules_single h1 hd]

/-! ## Table conditions, checked on all rows -/

/-- The conditions on the tables of one language. -/
def langOk (l : AbjadData) : Bool :=
  noConflict l.visualNorm && (l.nonfinal.all fun p => Nat.beq p.1.length 1) && lhsDetB l.nonfinal &&
  (l.finalIsolated.all fun p => Nat.beq p.1.length 1) && lhsDetB l.finalIsolated &&
  ((l.finalIsolated ++ l.isolated).all fun p => !p.1.isEmpty) &&
  lhsDetB (l.finalIsolated ++ l.isolated)

theorem langOk_all : (Data.abjadLangs.all langOk) = true := by decide +kernel

theorem pf_increasing : increasing 0 Data.arabPresentationForms = true := by decide +kernel

theorem pf_ne : Data.arabPresentationForms ≠ [] := by
  unfold Data.arabPresentationForms; exact List.cons_ne_nil _ _

theorem nfc_ok : noConflict Data.arabNfc = true := by decide +kernel

theorem vis_ok : noConflict Data.arabVisualNorm = true := by decide +kernel

structure LangOk (l : AbjadData) : Prop where
  vn : noConflict l.visualNorm = true
  nf1 : ∀ p ∈ l.nonfinal, p.1.length = 1
  nfd : ∀ p ∈ l.nonfinal, ∀ q ∈ l.nonfinal, p.1 = q.1 → p = q
  fi1 : ∀ p ∈ l.finalIsolated, p.1.length = 1
  fid : ∀ p ∈ l.finalIsolated, ∀ q ∈ l.finalIsolated, p.1 = q.1 → p = q
  is1 : LhsNonempty (l.finalIsolated ++ l.isolated)
  isd : ∀ p ∈ l.finalIsolated ++ l.isolated, ∀ q ∈ l.finalIsolated ++ l.isolated, p.1 = q.1 → p = q

theorem langOk_of {l : AbjadData} (hl : l ∈ Data.abjadLangs) : LangOk l := by
  have h := List.all_eq_true.1 langOk_all l hl
  simp only [langOk, Bool.and_eq_true] at h
  obtain ⟨⟨⟨⟨⟨⟨h1, h2⟩, h3⟩, h4⟩, h5⟩, h6⟩, h7⟩ := h
  refine ⟨h1, fun p hp => ?_, lhsDetB_iff h3, fun p hp => ?_, lhsDetB_iff h5, ?_, lhsDetB_iff h7⟩
  · exact Nat.eq_of_beq_eq_true (List.all_eq_true.1 h2 p hp)
  · exact Nat.eq_of_beq_eq_true (List.all_eq_true.1 h4 p hp)
  · intro p hp hn
    have := List.all_eq_true.1 h6 p hp
    simp [hn] at this

/-! ## The whole normalization -/

def pfMap (s : Str) : Str := s.flatMap (charMap Data.arabPresentationForms)
def nfc (s : Str) : Str := applyRules Data.arabNfc s
def anywhere (l : AbjadData) (s : Str) : Str :=
  applyRules l.visualNorm (applyRules Data.arabVisualNorm (nfc s))
def positional (l : AbjadData) (s : Str) : Str :=
  iso (l.finalIsolated ++ l.isolated) (fin l.finalIsolated (nonfin l.nonfinal s))
def visualNorm (l : AbjadData) (s : Str) : Str := positional l (anywhere l (pfMap s))

/-- The alphabet contains what the grammar of `l` writes. -/
structure Writes (l : AbjadData) (σ : Nat → Prop) : Prop where
  pf : RhsOver σ Data.arabPresentationForms
  nfc : RhsOver σ Data.arabNfc
  vis : RhsOver σ Data.arabVisualNorm
  vn : RhsOver σ l.visualNorm
  nf : RhsOver σ l.nonfinal
  fi : RhsOver σ l.finalIsolated
  is : RhsOver σ l.isolated

theorem Writes.both {l : AbjadData} {σ : Nat → Prop} (h : Writes l σ) :
    RhsOver σ (l.finalIsolated ++ l.isolated) := by
  intro p hp
  rcases List.mem_append.1 hp with hp | hp
  · exact h.fi p hp
  · exact h.is p hp

theorem mem_tableChars {rows : List Rule} {p : Rule} (hp : p ∈ rows) {c : Nat} (hc : c ∈ p.2) :
    c ∈ tableChars rows := List.mem_flatMap.2 ⟨p, hp, List.mem_append_right _ hc⟩

/-- The rules of the common table are among those of every language. -/
theorem vis_sub_ar : (Data.arabVisualNorm.all fun p => Data.arabAr.visualNorm.any (ruleEq p)) = true := by
  decide +kernel

theorem writes_sigma {l : AbjadData} (hl : l ∈ Data.abjadLangs) : Writes l sigma where
  pf p hp c hc := Or.inr (Or.inl (mem_tableChars hp hc))
  nfc p hp c hc := Or.inl (mem_tableChars hp hc)
  vis p hp c hc := by
    have := List.any_eq_true.1 (List.all_eq_true.1 vis_sub_ar p hp)
    obtain ⟨q, hq, e⟩ := this
    obtain rfl := ruleEq_iff.1 e
    exact Or.inr (Or.inr (Or.inr (Or.inl ⟨Data.arabAr, by simp [Data.abjadLangs],
      Or.inr (Or.inl (mem_tableChars hq hc))⟩)))
  vn p hp c hc := Or.inr (Or.inr (Or.inr (Or.inl ⟨l, hl, Or.inr (Or.inl (mem_tableChars hp hc))⟩)))
  nf p hp c hc := Or.inr (Or.inr (Or.inr (Or.inl ⟨l, hl,
    Or.inr (Or.inr (Or.inr (Or.inr (mem_tableChars hp hc))))⟩)))
  fi p hp c hc := Or.inr (Or.inr (Or.inr (Or.inl ⟨l, hl,
    Or.inr (Or.inr (Or.inl (mem_tableChars hp hc)))⟩)))
  is p hp c hc := Or.inr (Or.inr (Or.inr (Or.inl ⟨l, hl,
    Or.inr (Or.inr (Or.inr (Or.inl (mem_tableChars hp hc))))⟩)))

theorem over_pfMap {σ : Nat → Prop} (h : RhsOver σ Data.arabPresentationForms) :
    MapsOver σ σ pfMap := by
  intro s hs d hd
  obtain ⟨c, hc, hd⟩ := List.mem_flatMap.1 hd
  exact over_charMap (σ := σ) h (fun _ => hs c hc) d hd

theorem over_applyRules {σ : Nat → Prop} {rules : List Rule} (h : noConflict rules = true)
    (hσ : RhsOver σ rules) : MapsOver σ σ (applyRules rules) := by
  obtain ⟨_, _, _, h⟩ := noConflict_graph h hσ
  exact h

theorem nfc_graph {σ : Nat → Prop} (hσ : RhsOver σ Data.arabNfc) :
    ∃ R, nfcFst σ = some R ∧ Graph σ R nfc ∧ MapsOver σ σ nfc := noConflict_graph nfc_ok hσ

theorem over_anywhere {l : AbjadData} (hl : l ∈ Data.abjadLangs) {σ : Nat → Prop}
    (h2 : RhsOver σ Data.arabNfc)
    (h3 : RhsOver σ Data.arabVisualNorm) (h4 : RhsOver σ l.visualNorm) :
    MapsOver σ σ (anywhere l) := fun s hs =>
  over_applyRules (langOk_of hl).vn h4 _ (over_applyRules vis_ok h3 _ (over_applyRules nfc_ok h2 _ hs))

theorem over_positional {l : AbjadData} {σ : Nat → Prop} (h : RhsOver σ l.nonfinal)
    (h' : RhsOver σ l.finalIsolated) (h'' : RhsOver σ l.isolated) :
    MapsOver σ σ (positional l) := fun s hs => by
  refine over_iso ?_ _ (over_fin h' _ (over_nonfin h _ hs))
  intro p hp
  rcases List.mem_append.1 hp with hp | hp
  · exact h' p hp
  · exact h'' p hp

theorem fsts_cons {σ : Nat → Prop} {rules : List Rule} {files : List (List Rule)} {R : Rel}
    {Rs : List Rel} (h : fstFromRules rules σ = some R) (k : fstsFromFiles σ files = some Rs) :
    fstsFromFiles σ (rules :: files) = some (R :: Rs) := by
  simp [fstsFromFiles, h, k]

theorem common_fsts {σ : Nat → Prop} {pf n v : Rel}
    (e1 : fstFromRules Data.arabPresentationForms σ = some pf)
    (e2 : fstFromRules Data.arabNfc σ = some n)
    (e3 : fstFromRules Data.arabVisualNorm σ = some v) : scriptCommonFsts σ = some [pf, n, v] := by
  delta scriptCommonFsts
  have h3 : fstsFromFiles σ [Data.arabVisualNorm] = some [v] := fsts_cons e3 rfl
  have h2 : fstsFromFiles σ [Data.arabNfc, Data.arabVisualNorm] = some [n, v] := fsts_cons e2 h3
  exact fsts_cons e1 h2

theorem langFsts_eq {σ : Nat → Prop} {l : AbjadData} {a : Rel}
    (e : fstFromRules l.visualNorm σ = some a) :
    langFsts l σ = some [a, nonfinalRewrite l.nonfinal σ, finalRewrite l.finalIsolated σ,
      isolatedRewrite (l.finalIsolated ++ l.isolated) σ] := by
  simp [langFsts, e]

theorem visualNormFst_eq {σ : Nat → Prop} {l : AbjadData} {pf n v a b c d : Rel}
    (h1 : scriptCommonFsts σ = some [pf, n, v]) (h2 : langFsts l σ = some [a, b, c, d]) :
    visualNormFst l σ = some (Rel.comp pf (Rel.comp n (Rel.comp v (Rel.comp a
        (Rel.comp b (Rel.comp c d)))))) := by
  delta visualNormFst
  rw [h1, h2]
  rfl

/-- The stages of the compiled grammar. -/
theorem visualNorm_stages {l : AbjadData} (hl : l ∈ Data.abjadLangs) {σ : Nat → Prop}
    (hσ : Writes l σ) : ∃ pf n v a,
      fstFromRules Data.arabPresentationForms σ = some pf ∧ Graph σ pf pfMap ∧
      fstFromRules Data.arabNfc σ = some n ∧ Graph σ n nfc ∧
      fstFromRules Data.arabVisualNorm σ = some v ∧ Graph σ v (applyRules Data.arabVisualNorm) ∧
      fstFromRules l.visualNorm σ = some a ∧ Graph σ a (applyRules l.visualNorm) ∧
      visualNormFst l σ = some (Rel.comp pf (Rel.comp n (Rel.comp v (Rel.comp a
        (Rel.comp (nonfinalRewrite l.nonfinal σ) (Rel.comp (finalRewrite l.finalIsolated σ)
          (isolatedRewrite (l.finalIsolated ++ l.isolated) σ))))))) := by
  obtain ⟨pf, e1, g1⟩ := single_graph (increasing_single pf_increasing)
    (increasing_det pf_increasing) pf_ne hσ.pf
  change Graph σ pf pfMap at g1
  obtain ⟨n, e2, g2, _⟩ := noConflict_graph nfc_ok hσ.nfc
  obtain ⟨v, e3, g3, _⟩ := noConflict_graph vis_ok hσ.vis
  obtain ⟨a, e4, g4, _⟩ := noConflict_graph (langOk_of hl).vn hσ.vn
  refine ⟨pf, n, v, a, e1, g1, e2, g2, e3, g3, e4, g4, ?_⟩
  have h1 := common_fsts e1 e2 e3
  exact visualNormFst_eq h1 (langFsts_eq e4)

theorem Graph.comp' {σ : Nat → Prop} {R S : Rel} {f g : Str → Str} (h : Graph σ R f)
    (hf : MapsOver σ σ f) (k : Graph σ S g) : Graph σ (Rel.comp R S) (fun s => g (f s)) := by
  intro s t
  constructor
  · rintro ⟨y, hy, hz⟩
    obtain ⟨h1, rfl⟩ := (h _ _).1 hy
    exact ⟨h1, ((k _ _).1 hz).2⟩
  · rintro ⟨h1, rfl⟩
    exact ⟨f s, (h _ _).2 ⟨h1, rfl⟩, (k _ _).2 ⟨hf s h1, rfl⟩⟩

theorem visualNorm_graph {l : AbjadData} (hl : l ∈ Data.abjadLangs) {σ : Nat → Prop}
    (hσ : Writes l σ) : ∃ R, visualNormFst l σ = some R ∧ Graph σ R (visualNorm l) ∧
      MapsOver σ σ (visualNorm l) := by
  obtain ⟨pf, n, v, a, _, g1, _, g2, _, g3, _, g4, e⟩ := visualNorm_stages hl hσ
  have ok := langOk_of hl
  refine ⟨_, e, ?_, ?_⟩
  · have g5 := isolated_graph ok.is1 ok.isd hσ.both
    have g6 := Graph.comp' (final_graph ok.fi1 ok.fid hσ.fi) (over_fin hσ.fi) g5
    have g7 := Graph.comp' (nonfinal_graph ok.nf1 ok.nfd hσ.nf) (over_nonfin hσ.nf) g6
    have g8 := Graph.comp' g4 (over_applyRules ok.vn hσ.vn) g7
    have g9 := Graph.comp' g3 (over_applyRules vis_ok hσ.vis) g8
    have g10 := Graph.comp' g2 (over_applyRules nfc_ok hσ.nfc) g9
    have g11 := Graph.comp' g1 (over_pfMap hσ.pf) g10
    exact g11
  · exact fun s hs => over_positional hσ.nf hσ.fi hσ.is _
      (over_anywhere hl hσ.nfc hσ.vis hσ.vn _ (over_pfMap hσ.pf _ hs))

end Nisaba.Abjad
