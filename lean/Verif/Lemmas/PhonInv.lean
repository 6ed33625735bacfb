import Verif.Data.PhonInvTable
import Verif.Props.Feature
import Verif.Lemmas.Profile
/-!
# Lemmas for the inventory of universal phonemes
-/
namespace Nisaba.PhonInv
open Nisaba.Feature Nisaba.Props.FeatureAux

set_option maxRecDepth 100000

theorem phonemes_eq : phonemes = some table := by decide +kernel

/-- The place of a value in `quarters`. -/
def ix (f : Nat) : Nat := bif Nat.beq f 1000 then 0 else bif Nat.beq f 1001 then 15 else f

/-- Four times the distance of two values. -/
def quarter (m : List (List Nat)) (f g : Nat) : Nat :=
  bif Nat.beq f g then 0 else (m.getD (ix f) []).getD (ix g) 0

/-- The values of an aspect. -/
def values (r : Val) : List Nat := 1000 :: 1001 :: leafIds r

theorem quarters_dist : ∀ rm ∈ roots.zip quarters, ∀ f ∈ values rm.1, ∀ g ∈ values rm.1,
    dist rm.1 f g = (quarter rm.2 f g : Rat) / 4 := by decide +kernel


/-! ## Updates -/

theorem seq_iff : ∀ {x y : Str}, NT.seq x y = true ↔ x = y
  | [], [] => by simp [NT.seq]
  | [], _ :: _ => by simp [NT.seq]
  | _ :: _, [] => by simp [NT.seq]
  | a :: x, b :: y => by
    have ih := @seq_iff x y
    simp only [NT.seq, List.cons.injEq]
    cases h : Nat.beq a b
    · have : a ≠ b := fun e => by subst e; simp [Nat.beq_refl] at h
      simp [this]
    · have : a = b := Nat.eq_of_beq_eq_true h
      simp [this, ih]

theorem mem_group {fs : List Fe} {a v : Nat} : v ∈ group fs a ↔ (a, v) ∈ fs := by
  simp only [group, mem_toSet, List.mem_map, List.mem_filter]
  constructor
  · rintro ⟨⟨a', v'⟩, ⟨h, e⟩, rfl⟩
    have : a' = a := Nat.eq_of_beq_eq_true e
    exact this ▸ h
  · intro h
    exact ⟨(a, v), ⟨h, Nat.beq_refl a⟩, rfl⟩

theorem group_empty {fs : List Fe} {a : Nat} : (group fs a).isEmpty = true ↔ ∀ v, (a, v) ∉ fs := by
  rw [List.isEmpty_iff, List.eq_nil_iff_forall_not_mem]
  simp only [mem_group]

theorem updateFrom_get (fs : List Fe) : ∀ (p : Profile) (a k : Nat),
    (updateFrom fs a p)[k]? =
      p[k]?.map (fun s => if (group fs (a + k)).isEmpty then s else group fs (a + k))
  | [], a, k => by simp [updateFrom]
  | s :: p, a, 0 => by simp [updateFrom]
  | s :: p, a, k + 1 => by
    simp only [updateFrom, List.getElem?_cons_succ]
    rw [updateFrom_get fs p (a + 1) k]
    have : a + 1 + k = a + (k + 1) := by omega
    rw [this]

theorem update_get (p : Profile) (fs : List Fe) (k : Nat) :
    (update p fs)[k]? = p[k]?.map (fun s => if (group fs k).isEmpty then s else group fs k) := by
  have h := updateFrom_get fs p 0 k
  rw [Nat.zero_add] at h
  exact h

theorem length_updateFrom (fs : List Fe) : ∀ (p : Profile) (a : Nat),
    (updateFrom fs a p).length = p.length
  | [], _ => rfl
  | _ :: p, a => by simp [updateFrom, length_updateFrom fs p]

theorem length_update (p : Profile) (fs : List Fe) : (update p fs).length = p.length :=
  length_updateFrom fs p 0

/-- The profile of a symbol after the updates of the loops in which its alias stands. -/
def applyAll (alias : Str) (ops : List (List Str × List Fe)) (p : Profile) : Profile :=
  ops.foldl (fun p op => op.1.foldl (fun p t => if t = alias then update p op.2 else p) p) p

def applyTargets (alias : Str) (fs : List Fe) (ts : List Str) (p : Profile) : Profile :=
  ts.foldl (fun p t => if t = alias then update p fs else p) p

theorem updateOne_eq {fs : List Fe} {inv inv' : List Phoneme} {t : Str}
    (h : updateOne fs inv t = some inv') :
    inv' = inv.map (fun q => { q with desc := if t = q.alias then update q.desc fs else q.desc }) := by
  unfold updateOne at h
  split at h
  · cases h
    apply List.map_congr_left
    intro q _
    by_cases e : t = q.alias
    · rw [if_pos (seq_iff.2 e.symm), if_pos e]
    · rw [if_neg (fun h => e (seq_iff.1 h).symm), if_neg e]
  · cases h

theorem targets_eq {fs : List Fe} : ∀ (ts : List Str) {inv inv' : List Phoneme},
    ts.foldlM (updateOne fs) inv = some inv' →
    inv' = inv.map (fun q => { q with desc := applyTargets q.alias fs ts q.desc })
  | [], inv, inv', h => by
    simp only [List.foldlM_nil] at h
    cases h
    simp [applyTargets]
  | t :: ts, inv, inv', h => by
    simp only [List.foldlM_cons] at h
    cases h1 : updateOne fs inv t with
    | none => rw [h1] at h; cases h
    | some i1 =>
      rw [h1] at h
      have := targets_eq ts h
      rw [this, updateOne_eq h1, List.map_map]
      rfl

theorem loops_eq : ∀ (ops : List (List Str × List Fe)) {inv inv' : List Phoneme},
    ops.foldlM updateLoop inv = some inv' →
    inv' = inv.map (fun q => { q with desc := applyAll q.alias ops q.desc })
  | [], inv, inv', h => by
    simp only [List.foldlM_nil] at h
    cases h
    simp [applyAll]
  | op :: ops, inv, inv', h => by
    simp only [List.foldlM_cons] at h
    cases h1 : updateLoop inv op with
    | none => rw [h1] at h; cases h
    | some i1 =>
      rw [h1] at h
      have := loops_eq ops h
      rw [this, targets_eq op.1 h1, List.map_map]
      rfl

/-- The update names the aspect of the symbol. -/
def Touches (alias : Str) (a : Nat) (op : List Str × List Fe) : Prop :=
  alias ∈ op.1 ∧ ∃ v, (a, v) ∈ op.2

theorem applyTargets_get {alias : Str} {fs : List Fe} {a : Nat} : ∀ (ts : List Str) (p : Profile),
    (applyTargets alias fs ts p)[a]? =
      p[a]?.map (fun s => if alias ∈ ts ∧ (group fs a).isEmpty = false then group fs a else s)
  | [], p => by simp [applyTargets]
  | t :: ts, p => by
    have ih := @applyTargets_get alias fs a ts (if t = alias then update p fs else p)
    have e : applyTargets alias fs (t :: ts) p =
      applyTargets alias fs ts (if t = alias then update p fs else p) := rfl
    rw [e, ih]
    by_cases ht : t = alias
    · subst ht
      simp only [if_pos, update_get]
      cases p[a]? <;> cases hg : (group fs a).isEmpty <;> simp
    · simp only [if_neg ht, List.mem_cons, Ne.symm ht, false_or]

theorem applyAll_untouched {alias : Str} {a : Nat} : ∀ {ops : List (List Str × List Fe)} (p : Profile),
    (∀ op ∈ ops, ¬ Touches alias a op) → (applyAll alias ops p)[a]? = p[a]?
  | [], p, _ => rfl
  | op :: ops, p, h => by
    have e : applyAll alias (op :: ops) p = applyAll alias ops (applyTargets alias op.2 op.1 p) := rfl
    rw [e, applyAll_untouched _ (fun o ho => h o (List.mem_cons_of_mem _ ho)), applyTargets_get]
    have h0 := h op (List.mem_cons_self ..)
    have : ¬ (alias ∈ op.1 ∧ (group op.2 a).isEmpty = false) := by
      rintro ⟨h1, h2⟩
      apply h0
      refine ⟨h1, ?_⟩
      apply Classical.byContradiction
      intro hv
      have : (group op.2 a).isEmpty = true := group_empty.2 (fun v hm => hv ⟨v, hm⟩)
      rw [this] at h2
      cases h2
    simp only [if_neg this]
    cases p[a]? <;> rfl

theorem applyAll_append (alias : Str) (ops ops' : List (List Str × List Fe)) (p : Profile) :
    applyAll alias (ops ++ ops') p = applyAll alias ops' (applyAll alias ops p) := by
  simp [applyAll]

theorem applyAll_length {alias : Str} : ∀ (ops : List (List Str × List Fe)) (p : Profile),
    (applyAll alias ops p).length = p.length
  | [], _ => rfl
  | op :: ops, p => by
    have e : applyAll alias (op :: ops) p = applyAll alias ops (applyTargets alias op.2 op.1 p) := rfl
    rw [e, applyAll_length ops]
    have key : ∀ (ts : List Str) (p : Profile), (applyTargets alias op.2 ts p).length = p.length := by
      intro ts
      induction ts with
      | nil => intro p; rfl
      | cons t ts ih =>
        intro p
        have e : applyTargets alias op.2 (t :: ts) p =
          applyTargets alias op.2 ts (if t = alias then update p op.2 else p) := rfl
        rw [e, ih]
        split
        · exact length_update _ _
        · rfl
    exact key _ _

theorem applyAll_last {alias : Str} {a : Nat} {pre post : List (List Str × List Fe)}
    {op : List Str × List Fe} (p : Profile) (hop : Touches alias a op)
    (hpost : ∀ o ∈ post, ¬ Touches alias a o) (ha : a < p.length) :
    (applyAll alias (pre ++ op :: post) p)[a]? = some (group op.2 a) := by
  have e : applyAll alias (pre ++ op :: post) p =
      applyAll alias post (applyTargets alias op.2 op.1 (applyAll alias pre p)) := by
    rw [applyAll_append]; rfl
  rw [e, applyAll_untouched _ hpost, applyTargets_get]
  obtain ⟨h1, v, h2⟩ := hop
  have h3 : (group op.2 a).isEmpty = false := by
    cases h : (group op.2 a).isEmpty
    · rfl
    · exact absurd h2 (group_empty.1 h v)
  have : a < (applyAll alias pre p).length := by rw [applyAll_length]; exact ha
  rw [List.getElem?_eq_getElem this]
  simp [h1, h3]

theorem buildFrom_length (d : Nat) (fs : List Fe) : ∀ (n a : Nat), (buildFrom d fs a n).length = n
  | 0, _ => rfl
  | n + 1, a => by simp [buildFrom, buildFrom_length d fs n]

theorem addFrom_length (fs : List Fe) : ∀ (p : Profile) (a : Nat), (addFrom fs a p).length = p.length
  | [], _ => rfl
  | _ :: p, a => by simp [addFrom, addFrom_length fs p]

theorem mem_addPhonemes : ∀ (ps inv : List Phoneme) {p : Phoneme},
    p ∈ ps.foldl addPhoneme inv → p ∈ inv ∨ p ∈ ps
  | [], _, _, h => .inl h
  | q :: ps, inv, p, h => by
    rcases mem_addPhonemes ps _ h with h | h
    · unfold addPhoneme at h
      split at h
      · exact .inl h
      · rcases List.mem_append.1 h with h | h
        · exact .inl h
        · simp only [List.mem_singleton] at h
          exact .inr (h ▸ List.mem_cons_self ..)
    · exact .inr (List.mem_cons_of_mem _ h)

/-! ## Synchronisation and unions -/

theorem mem_featuresFrom {v : Nat} : ∀ {p : Profile} {b a : Nat},
    (a, v) ∈ featuresFrom b p ↔ ∃ k s, a = b + k ∧ p[k]? = some s ∧ v ∈ s
  | [], b, a => by simp [featuresFrom]
  | s :: p, b, a => by
    simp only [featuresFrom, List.mem_append, List.mem_map, mem_featuresFrom (p := p)]
    constructor
    · rintro (⟨w, hw, e⟩ | ⟨k, s', rfl, h, hv⟩)
      · cases e
        exact ⟨0, s, rfl, rfl, hw⟩
      · exact ⟨k + 1, s', by omega, h, hv⟩
    · rintro ⟨k, s', rfl, h, hv⟩
      cases k with
      | zero =>
        simp only [List.getElem?_cons_zero, Option.some.injEq] at h
        exact .inl ⟨v, h ▸ hv, rfl⟩
      | succ k => exact .inr ⟨k, s', by omega, by simpa using h, hv⟩

theorem mem_features {p : Profile} {a v : Nat} :
    (a, v) ∈ features p ↔ ∃ s, p[a]? = some s ∧ v ∈ s := by
  rw [features, mem_featuresFrom]
  constructor
  · rintro ⟨k, s, e, h, hv⟩
    have : a = k := by omega
    exact ⟨s, this ▸ h, hv⟩
  · rintro ⟨s, h, hv⟩
    exact ⟨a, s, by omega, h, hv⟩

/-! ## Distances in quarters -/

theorem featSetDistance_congr {d d' : Nat → Nat → Rat} {f : Nat} : ∀ {s : List Nat},
    (∀ x ∈ s, d f x = d' f x) → featSetDistance d f s = featSetDistance d' f s := by
  intro s h
  unfold featSetDistance
  split
  · rfl
  · have key : ∀ (s : List Nat) (m : Rat), (∀ x ∈ s, d f x = d' f x) →
        s.foldl (fun m g => min m (d f g)) m = s.foldl (fun m g => min m (d' f g)) m := by
      intro s
      induction s with
      | nil => intros; rfl
      | cons x s ih =>
        intro m h
        simp only [List.foldl_cons]
        rw [h x (List.mem_cons_self ..), ih _ (fun y hy => h y (List.mem_cons_of_mem _ hy))]
    exact key s _ h

theorem loop_congr {d d' : Nat → Nat → Rat} {s : List Nat} : ∀ {t : List Nat} {m : Rat},
    (∀ x ∈ s, ∀ y ∈ t, d y x = d' y x) → setDistanceLoop d s t m = setDistanceLoop d' s t m
  | [], _, _ => rfl
  | f :: t, m, h => by
    simp only [setDistanceLoop]
    rw [featSetDistance_congr (fun x hx => h x hx f (List.mem_cons_self ..))]
    split
    · rfl
    · split
      · rfl
      · exact loop_congr (fun x hx y hy => h x hx y (List.mem_cons_of_mem _ hy))

/-- Four times the distance of two sets. -/
def natDist (m : List (List Nat)) (s t : List Nat) : Nat :=
  t.foldr (fun y r => s.foldr (fun x r => Nat.min (quarter m y x) r) r) 4000000

theorem inner_fold (f : Nat → Nat) : ∀ (s : List Nat) (r : Nat),
    s.foldr (fun x r => Nat.min (f x) r) r ≤ r ∧
      (∀ x ∈ s, s.foldr (fun x r => Nat.min (f x) r) r ≤ f x) ∧
      (s.foldr (fun x r => Nat.min (f x) r) r = r ∨
        ∃ x ∈ s, s.foldr (fun x r => Nat.min (f x) r) r = f x)
  | [], r => by simp
  | x :: s, r => by
    obtain ⟨h1, h2, h3⟩ := inner_fold f s r
    simp only [List.foldr_cons, List.mem_cons]
    generalize s.foldr (fun x r => Nat.min (f x) r) r = w at *
    have e : Nat.min (f x) w = min (f x) w := rfl
    rw [e]
    refine ⟨by omega, ?_, ?_⟩
    · rintro y (rfl | hy)
      · omega
      · have := h2 y hy; omega
    · by_cases hc : f x ≤ w
      · exact .inr ⟨x, .inl rfl, by omega⟩
      · have : min (f x) w = w := by omega
        rw [this]
        rcases h3 with h3 | ⟨y, hy, h3⟩
        · exact .inl h3
        · exact .inr ⟨y, .inr hy, h3⟩

theorem natDist_spec (m : List (List Nat)) (s : List Nat) : ∀ (t : List Nat),
    natDist m s t ≤ 4000000 ∧ (∀ x ∈ s, ∀ y ∈ t, natDist m s t ≤ quarter m y x) ∧
      (natDist m s t = 4000000 ∨ ∃ x ∈ s, ∃ y ∈ t, natDist m s t = quarter m y x)
  | [] => by simp [natDist]
  | y :: t => by
    obtain ⟨h1, h2, h3⟩ := natDist_spec m s t
    have e : natDist m s (y :: t) =
      s.foldr (fun x r => Nat.min (quarter m y x) r) (natDist m s t) := rfl
    obtain ⟨g1, g2, g3⟩ := inner_fold (quarter m y) s (natDist m s t)
    rw [← e] at g1 g2 g3
    refine ⟨by omega, ?_, ?_⟩
    · intro x hx z hz
      rcases List.mem_cons.1 hz with rfl | hz
      · exact g2 x hx
      · have := h2 x hx z hz; omega
    · rcases g3 with g3 | ⟨x, hx, g3⟩
      · rw [g3]
        rcases h3 with h3 | ⟨x, hx, z, hz, h3⟩
        · exact .inl h3
        · exact .inr ⟨x, hx, z, List.mem_cons_of_mem _ hz, h3⟩
      · exact .inr ⟨x, hx, y, List.mem_cons_self .., g3⟩

theorem quarter_self (m : List (List Nat)) (f : Nat) : quarter m f f = 0 := by
  simp [quarter, Nat.beq_refl]

theorem div4_le {a b : Nat} (h : a ≤ b) : (a : Rat) / 4 ≤ (b : Rat) / 4 := by
  have : (a : Rat) ≤ (b : Rat) := by exact_mod_cast h
  grind

theorem setDistance_quarter {r : Val} {m : List (List Nat)} {s t : List Nat}
    (h : ∀ f ∈ values r, ∀ g ∈ values r, dist r f g = (quarter m f g : Rat) / 4)
    (hs : ∀ x ∈ s, x ∈ values r) (ht : ∀ x ∈ t, x ∈ values r) :
    setDistance (dist r) s t = (natDist m s t : Rat) / 4 := by
  have e : setDistance (dist r) s t = setDistance (fun f g => (quarter m f g : Rat) / 4) s t :=
    loop_congr (fun x hx y hy => h y (ht y hy) x (hs x hx))
  rw [e]
  apply (setDistance_least (dist := fun f g => (quarter m f g : Rat) / 4) ?_ ?_ s t).unique
  · obtain ⟨h1, h2, h3⟩ := natDist_spec m s t
    have e4 : errorDistance = ((4000000 : Nat) : Rat) / 4 := by decide +kernel
    refine ⟨?_, ?_, ?_⟩
    · rw [e4]; exact div4_le h1
    · intro x hx y hy
      exact div4_le (h2 x hx y hy)
    · rcases h3 with h3 | ⟨x, hx, y, hy, h3⟩
      · left; rw [h3, e4]
      · exact .inr ⟨x, hx, y, hy, by rw [h3]⟩
  · intro x
    show ((quarter m x x : Nat) : Rat) / 4 = 0
    rw [quarter_self]; decide +kernel
  · intro x y
    have := div4_le (Nat.zero_le (quarter m x y))
    have z : ((0 : Nat) : Rat) / 4 = 0 := by decide +kernel
    rw [z] at this
    exact this

/-- Four times the total distance. -/
def natTotal : List (List (List Nat)) → Profile → Profile → Nat
  | m :: ms, s :: p, t :: q => Nat.add (natDist m s t) (natTotal ms p q)
  | _, _, _ => 0

/-- Every value is one of its aspect. -/
def valid : List Val → Profile → Bool
  | r :: rs, s :: p => s.all (fun v => (values r).contains v) && valid rs p
  | [], [] => true
  | _, _ => false

theorem totals_fst : ∀ (rs : List Val) (ms : List (List (List Nat))) (p q : Profile),
    rs.length = ms.length →
    (∀ rm ∈ rs.zip ms, ∀ f ∈ values rm.1, ∀ g ∈ values rm.1,
      dist rm.1 f g = (quarter rm.2 f g : Rat) / 4) →
    valid rs p = true → valid rs q = true → (totals rs p q).1 = (natTotal ms p q : Rat) / 4
  | [], [], p, q, _, _, _, _ => by
    simp only [totals, natTotal]; decide +kernel
  | r :: rs, m :: ms, s :: p, t :: q, hl, h, hp, hq => by
    simp only [valid, Bool.and_eq_true, List.all_eq_true, List.contains_iff_mem] at hp hq
    have ih := totals_fst rs ms p q (by simpa using hl)
      (fun rm hr => h rm (List.mem_cons_of_mem _ hr)) hp.2 hq.2
    have h0 := setDistance_quarter (h (r, m) (List.mem_cons_self ..)) hp.1 hq.1
    simp only [totals, natTotal, ih]
    rw [h0]
    have : ((Nat.add (natDist m s t) (natTotal ms p q) : Nat) : Rat) =
        (natDist m s t : Rat) + (natTotal ms p q : Rat) := by
      exact_mod_cast rfl
    rw [this]
    grind
  | r :: rs, m :: ms, [], _, _, _, hp, _ => by simp [valid] at hp
  | r :: rs, m :: ms, _ :: _, [], _, _, _, hq => by simp [valid] at hq
  | [], _ :: _, _, _, hl, _, _, _ => by simp at hl
  | _ :: _, [], _, _, hl, _, _, _ => by simp at hl

/-- The greatest total distance. -/
def maxTotal : List Val → Rat
  | [] => 0
  | r :: rs => (Aspect.populate r 1000 1001).maxDist + maxTotal rs

theorem totals_snd : ∀ (rs : List Val) (p q : Profile), valid rs p = true → valid rs q = true →
    (totals rs p q).2 = maxTotal rs
  | [], p, q, _, _ => by simp [totals, maxTotal]
  | r :: rs, s :: p, t :: q, hp, hq => by
    simp only [valid, Bool.and_eq_true] at hp hq
    simp only [totals, maxTotal, totals_snd rs p q hp.2 hq.2]
  | r :: rs, [], _, hp, _ => by simp [valid] at hp
  | r :: rs, _ :: _, [], _, hq => by simp [valid] at hq

theorem maxTotal_roots : maxTotal roots = 94 / 4 := by decide +kernel

/-- The similarity of two profiles in terms of the number `natTotal`. -/
theorem similarity_eq {p q : Profile} (hp : valid roots p = true) (hq : valid roots q = true) :
    similarity p q = .ok (1 - (natTotal quarters p q : Rat) / 94) := by
  have h1 := totals_fst roots quarters p q (by decide +kernel) quarters_dist hp hq
  have h2 := totals_snd roots p q hp hq
  rw [maxTotal_roots] at h2
  unfold similarity similarityOf
  rw [h1, h2, if_neg (by decide +kernel)]
  congr 2
  grind

theorem table_valid : ∀ p ∈ table, valid roots p.desc = true := by decide +kernel

end Nisaba.PhonInv
