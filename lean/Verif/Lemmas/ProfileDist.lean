import Verif.Lemmas.ProfileValue
import Verif.Props.Feature
/-!
# Distances and similarity of profiles
-/
namespace Nisaba.Feature
open Nisaba.Props Nisaba.Props.FeatureAux

/-- The aspects of the inventory were populated (feature.py:632-650) from well named lists. -/
def InvPop (i : FInv) : Prop :=
  ∀ a ∈ i.aspects, ∃ root, WellNamed root a.anyId a.naId ∧ StepsNonneg root ∧
    a.aspect = Aspect.populate root a.anyId a.naId

theorem owned_iff {root : Val} {anyId naId : Nat} (h : WellNamed root anyId naId) (n : Nat) :
    (Aspect.populate root anyId naId).owned n = true ↔ n ∈ leafIds root ∨ n = anyId ∨ n = naId := by
  obtain ⟨_, _, _, ho, _, _⟩ := populated h
  rw [ho]
  constructor
  · rintro (hm | hm)
    · obtain ⟨f, hf, rfl⟩ := (base h).1.inv.sub n hm
      exact .inl (List.mem_map_of_mem hf)
    · exact .inr hm
  · rintro (hm | hm)
    · obtain ⟨f, hf, rfl⟩ := List.mem_map.1 hm
      exact .inl ((base h).2 f hf)
    · exact .inr hm

/-- An inventory of populated aspects without common features, with usable aliases. -/
theorem invGood_of {i : FInv} (hp : InvPop i) (hal : (i.aspects.map PAspect.alias).Nodup)
    (hr : ∀ a ∈ i.aspects, a.alias ∉ profileFields)
    (hd : ∀ a ∈ i.aspects, ∀ b ∈ i.aspects, ∀ f, a.aspect.owned f = true → b.aspect.owned f = true →
      a.alias = b.alias) : InvGood i where
  aliases := hal
  reserved := hr
  apart := hd
  any := by
    intro a ha
    obtain ⟨root, h, _, e⟩ := hp a ha
    rw [e, owned_iff h]
    exact .inr (.inl rfl)
  na := by
    intro a ha
    obtain ⟨root, h, _, e⟩ := hp a ha
    rw [e, owned_iff h]
    exact .inr (.inr rfl)

theorem maxDist_nonneg {root : Val} {anyId naId : Nat} (h : WellNamed root anyId naId) :
    0 ≤ (Aspect.populate root anyId naId).maxDist := by
  obtain ⟨_, hmax, _⟩ := populated h
  rw [hmax, (base h).1.max]
  exact (maxFold_ge (triples root) Aspect.new.maxDist).1

theorem errorDistance_nonneg : (0 : Rat) ≤ errorDistance := by decide +kernel

/-- The distance of any two features that are asked about. -/
theorem distance_full {root : Val} {anyId naId : Nat} (h : WellNamed root anyId naId)
    (hst : StepsNonneg root) (f g : Nat) :
    let A := Aspect.populate root anyId naId
    ∃ d, A.distance f g = some d ∧ A.distance g f = some d ∧ 0 ≤ d ∧
      (A.owned f = true → A.owned g = true → d ≤ A.maxDist) ∧
      (A.owned f = true → f = g → d = 0) ∧
      (A.owned f = false ∨ A.owned g = false → d = errorDistance) := by
  intro A
  obtain ⟨_, _, _, _, hany, hna⟩ := populated h
  have hM := maxDist_nonneg h
  by_cases of : A.owned f = true <;> by_cases og : A.owned g = true
  · have done : ∀ d, A.distance f g = some d → A.distance g f = some d → 0 ≤ d → d ≤ A.maxDist →
        (f = g → d = 0) → _ := fun d h1 h2 h3 h4 h5 =>
      (⟨d, h1, h2, h3, fun _ _ => h4, fun _ => h5, fun h => by
        rw [of, og] at h; rcases h with h | h <;> cases h⟩ :
        ∃ d, A.distance f g = some d ∧ A.distance g f = some d ∧ 0 ≤ d ∧
          (A.owned f = true → A.owned g = true → d ≤ A.maxDist) ∧
          (A.owned f = true → f = g → d = 0) ∧
          (A.owned f = false ∨ A.owned g = false → d = errorDistance))
    have zero : g = f ∨ f = anyId ∨ g = anyId → A.distance f g = some 0 ∧ A.distance g f = some 0 := by
      intro hc
      simp only [A] at of og
      unfold Aspect.distance
      simp only [A, of, og, hany, Option.some.injEq, Field.feature.injEq]
      simp only [bne_self_eq_false, Bool.not_true, Bool.or_self, Bool.false_eq_true, if_false]
      constructor
      · rw [if_pos]
        rcases hc with e | e | e
        · exact .inl e
        · exact .inr (.inr e.symm)
        · exact .inr (.inl e.symm)
      · rw [if_pos]
        rcases hc with e | e | e
        · exact .inl e.symm
        · exact .inr (.inl e.symm)
        · exact .inr (.inr e.symm)
    rcases (owned_iff h f).1 of with hf | hf | hf
    · rcases (owned_iff h g).1 og with hg | hg | hg
      · obtain ⟨d, h1, h2, h3, h4⟩ := C42_bounds_partial h hst hf hg
        exact done d h1 ((C42_symmetric_partial h hg hf).trans h1) h2 h3 h4
      · exact done 0 (zero (.inr (.inr hg))).1 (zero (.inr (.inr hg))).2 Rat.le_refl hM fun _ => rfl
      · obtain ⟨_, _, h3, h4⟩ := C42_any_na_partial h hf
        subst hg
        exact done _ h3 h4 hM Rat.le_refl fun e => absurd e (leaf_ne hf h.naNew)
    · exact done 0 (zero (.inr (.inl hf))).1 (zero (.inr (.inl hf))).2 Rat.le_refl hM fun _ => rfl
    · rcases (owned_iff h g).1 og with hg | hg | hg
      · obtain ⟨_, _, h3, h4⟩ := C42_any_na_partial h hg
        subst hf
        exact done _ h4 h3 hM Rat.le_refl fun e => absurd e.symm (leaf_ne hg h.naNew)
      · exact done 0 (zero (.inr (.inr hg))).1 (zero (.inr (.inr hg))).2 Rat.le_refl hM fun _ => rfl
      · have e : g = f := hg.trans hf.symm
        exact done 0 (zero (.inl e)).1 (zero (.inl e)).2 Rat.le_refl hM fun _ => rfl
  · have : g ∉ leafIds root ∧ g ≠ anyId ∧ g ≠ naId := by
      have := mt (owned_iff h g).2 og
      simpa only [not_or] using this
    obtain ⟨h1, h2⟩ := C42_other_aspect_partial h f this.1 this.2.1 this.2.2
    exact ⟨_, h1, h2, errorDistance_nonneg, fun _ h => absurd h og, fun h e => absurd (e ▸ h) og,
      fun _ => rfl⟩
  · have : f ∉ leafIds root ∧ f ≠ anyId ∧ f ≠ naId := by
      have := mt (owned_iff h f).2 of
      simpa only [not_or] using this
    obtain ⟨h1, h2⟩ := C42_other_aspect_partial h g this.1 this.2.1 this.2.2
    exact ⟨_, h2, h1, errorDistance_nonneg, fun h => absurd h of, fun h => absurd h of, fun _ => rfl⟩
  · have : f ∉ leafIds root ∧ f ≠ anyId ∧ f ≠ naId := by
      have := mt (owned_iff h f).2 of
      simpa only [not_or] using this
    obtain ⟨h1, h2⟩ := C42_other_aspect_partial h g this.1 this.2.1 this.2.2
    exact ⟨_, h2, h1, errorDistance_nonneg, fun h => absurd h of, fun h => absurd h of, fun _ => rfl⟩

/-- The distance used to compare profiles. -/
theorem invDist {i : FInv} (hg : InvGood i) (hp : InvPop i) :
    (∀ x, i.dist x x = 0) ∧ (∀ x y, 0 ≤ i.dist x y) ∧ (∀ x y, i.dist x y = i.dist y x) ∧
    (∀ a ∈ i.aspects, ∀ x y, a.aspect.owned x = true → a.aspect.owned y = true →
      i.dist x y ≤ a.aspect.maxDist) := by
  have own : ∀ x a, i.aspects.find? (fun a => a.aspect.owned x) = some a →
      a ∈ i.aspects ∧ a.aspect.owned x = true := by
    intro x a h
    exact ⟨List.mem_of_find?_eq_some h, by simpa using List.find?_some h⟩
  have uniq : ∀ x a, a ∈ i.aspects → a.aspect.owned x = true →
      i.aspects.find? (fun a => a.aspect.owned x) = some a := by
    intro x a ha hx
    cases hf : i.aspects.find? (fun a => a.aspect.owned x) with
    | none =>
      rw [List.find?_eq_none] at hf
      exact absurd hx (hf a ha)
    | some b =>
      obtain ⟨hb, hbx⟩ := own x b hf
      rw [eq_of_alias hg.aliases ha hb (hg.apart a ha b hb x hx hbx)]
  have val : ∀ x y, x ≠ y → i.dist x y = i.dist y x ∧ 0 ≤ i.dist x y ∧
      (∀ a ∈ i.aspects, a.aspect.owned x = true → a.aspect.owned y = true →
        i.dist x y ≤ a.aspect.maxDist) := by
    intro x y hne
    simp only [FInv.dist, if_neg hne, if_neg (Ne.symm hne)]
    cases hx : i.aspects.find? (fun a => a.aspect.owned x) with
    | none =>
      cases hy : i.aspects.find? (fun a => a.aspect.owned y) with
      | none =>
        refine ⟨rfl, errorDistance_nonneg, fun a ha h1 => ?_⟩
        rw [List.find?_eq_none] at hx
        exact absurd h1 (hx a ha)
      | some b =>
        obtain ⟨hb, hby⟩ := own y b hy
        obtain ⟨root, h, hst, e⟩ := hp b hb
        obtain ⟨d, h1, h2, h3, h4, _, h6⟩ := distance_full h hst y x
        rw [← e] at h1 h6
        have hbx : b.aspect.owned x = false := by
          rw [List.find?_eq_none] at hx
          simpa using hx b hb
        simp only [h1, Option.getD_some]
        rw [h6 (.inr hbx)]
        refine ⟨rfl, errorDistance_nonneg, fun a ha h1 => ?_⟩
        rw [List.find?_eq_none] at hx
        exact absurd h1 (hx a ha)
    | some a =>
      obtain ⟨ha, hax⟩ := own x a hx
      obtain ⟨root, h, hst, e⟩ := hp a ha
      obtain ⟨d, h1, h2, h3, h4, _, h6⟩ := distance_full h hst x y
      rw [← e] at h1 h2 h4 h6
      simp only [h1, Option.getD_some]
      refine ⟨?_, h3, ?_⟩
      · cases hy : i.aspects.find? (fun a => a.aspect.owned y) with
        | none =>
          rw [List.find?_eq_none] at hy
          exact h6 (.inr (by simpa using hy a ha))
        | some b =>
          obtain ⟨hb, hby⟩ := own y b hy
          by_cases hay : a.aspect.owned y = true
          · have := eq_of_alias hg.aliases ha hb (hg.apart a ha b hb y hay hby)
            subst this
            simp only [h2, Option.getD_some]
          · obtain ⟨root', h', hst', e'⟩ := hp b hb
            obtain ⟨d', k1, k2, k3, k4, _, k6⟩ := distance_full h' hst' y x
            rw [← e'] at k1 k6
            simp only [k1, Option.getD_some]
            rw [h6 (.inr (by simpa using hay)), k6]
            refine .inr ?_
            by_cases hbx : b.aspect.owned x = true
            · have := eq_of_alias hg.aliases ha hb (hg.apart a ha b hb x hax hbx)
              subst this
              exact absurd hby hay
            · simpa using hbx
      · intro b hb hbx hby
        have := eq_of_alias hg.aliases ha hb (hg.apart a ha b hb x hax hbx)
        subst this
        exact h4 hbx hby
  have refl : ∀ x, i.dist x x = 0 := fun x => by simp [FInv.dist]
  refine ⟨refl, ?_, ?_, ?_⟩
  · intro x y
    by_cases e : x = y
    · subst e; rw [refl]; exact Rat.le_refl
    · exact (val x y e).2.1
  · intro x y
    by_cases e : x = y
    · subst e; rfl
    · exact (val x y e).1
  · intro a ha x y hx hy
    by_cases e : x = y
    · subst e
      rw [refl]
      obtain ⟨root, h, _, e⟩ := hp a ha
      rw [e]
      exact maxDist_nonneg h
    · exact (val x y e).2.2 a ha hx hy

theorem totals_symm {i : FInv} (hg : InvGood i) (hp : InvPop i) (W : World) (o1 o2 : Nat) :
    ∀ as, W.totals i o1 o2 as = W.totals i o2 o1 as
  | [] => rfl
  | a :: as => by
    obtain ⟨h0, hn, hs, _⟩ := invDist hg hp
    simp only [World.totals, totals_symm hg hp W o1 o2 as]
    rw [C42_set_symmetric h0 hn hs]

theorem setDistance_nonneg {i : FInv} (hg : InvGood i) (hp : InvPop i) (s t : List Nat) :
    0 ≤ setDistance i.dist s t := by
  obtain ⟨h0, hn, _, _⟩ := invDist hg hp
  rcases (C42_set_least h0 hn s t).2.2 with e | ⟨x, _, y, _, e⟩
  · rw [e]; exact errorDistance_nonneg
  · rw [e]; exact hn _ _

/-- Bounds of the sums, for clean profiles of the inventory. -/
theorem totals_bounds {i : FInv} (hg : InvGood i) (hp : InvPop i) (W : World) {o1 o2 : Nat}
    {p1 p2 : Prof} (h1 : Clean W o1 p1) (h2 : Clean W o2 p2) (e1 : p1.inv = i) (e2 : p2.inv = i) :
    ∀ as, (∀ a ∈ as, a ∈ i.aspects) →
      0 ≤ (W.totals i o1 o2 as).1 ∧ (W.totals i o1 o2 as).1 ≤ (W.totals i o1 o2 as).2
  | [], _ => ⟨Rat.le_refl, Rat.le_refl⟩
  | a :: as, has => by
    have ih := totals_bounds hg hp W h1 h2 e1 e2 as (fun b hb => has b (by simp [hb]))
    have ha := has a (by simp)
    obtain ⟨h0, hn, hs, hm⟩ := invDist hg hp
    have k1 := setDistance_nonneg hg hp (W.get o1 a) (W.get o2 a)
    have k2 : setDistance i.dist (W.get o1 a) (W.get o2 a) ≤ a.aspect.maxDist := by
      obtain ⟨n1, w1⟩ := h1 a (by rw [e1]; exact ha)
      obtain ⟨n2, w2⟩ := h2 a (by rw [e2]; exact ha)
      obtain ⟨x, hx⟩ := List.exists_mem_of_ne_nil _ n1
      obtain ⟨y, hy⟩ := List.exists_mem_of_ne_nil _ n2
      exact Rat.le_trans ((C42_set_least h0 hn _ _).2.1 x hx y hy) (hm a ha y x (w2 y hy) (w1 x hx))
    simp only [World.totals]
    grind

theorem totals_self {i : FInv} (hg : InvGood i) (hp : InvPop i) (W : World) {o : Nat} {p : Prof}
    (h : Clean W o p) (e : p.inv = i) : ∀ as, (∀ a ∈ as, a ∈ i.aspects) →
      (W.totals i o o as).1 = 0
  | [], _ => rfl
  | a :: as, has => by
    have ih := totals_self hg hp W h e as (fun b hb => has b (by simp [hb]))
    have ha := has a (by simp)
    obtain ⟨h0, hn, hs, hm⟩ := invDist hg hp
    have k1 := setDistance_nonneg hg hp (W.get o a) (W.get o a)
    obtain ⟨n1, _⟩ := h a (by rw [e]; exact ha)
    obtain ⟨x, hx⟩ := List.exists_mem_of_ne_nil _ n1
    have k2 := (C42_set_least h0 hn (W.get o a) (W.get o a)).2.1 x hx x hx
    rw [h0] at k2
    simp only [World.totals, ih, Rat.le_antisymm k2 k1]
    exact Rat.add_zero 0

theorem totals_snd (i : FInv) (W : World) (o1 o2 : Nat) : ∀ as,
    (W.totals i o1 o2 as).2 = (as.map fun a => a.aspect.maxDist).foldr (· + ·) 0
  | [] => rfl
  | a :: as => by simp only [World.totals, totals_snd i W o1 o2 as, List.map_cons, List.foldr_cons]

/-- The first sum is zero only if every distance is. -/
theorem totals_zero {i : FInv} (hg : InvGood i) (hp : InvPop i) (W : World) (o1 o2 : Nat) :
    ∀ as, 0 ≤ (W.totals i o1 o2 as).1 ∧ ((W.totals i o1 o2 as).1 = 0 ↔
      ∀ a ∈ as, setDistance i.dist (W.get o1 a) (W.get o2 a) = 0)
  | [] => ⟨Rat.le_refl, by simp [World.totals]⟩
  | a :: as => by
    obtain ⟨i1, i2⟩ := totals_zero hg hp W o1 o2 as
    have k1 := setDistance_nonneg hg hp (W.get o1 a) (W.get o2 a)
    simp only [World.totals, List.mem_cons, forall_eq_or_imp, ← i2]
    constructor
    · grind
    · constructor
      · intro h; constructor <;> grind
      · rintro ⟨h1, h2⟩; rw [h1, h2]; exact Rat.add_zero 0

theorem rat_div_bounds {x y : Rat} (h0 : 0 ≤ x) (h1 : x ≤ y) (hy : y ≠ 0) :
    0 ≤ 1 - x / y ∧ 1 - x / y ≤ 1 ∧ (1 - x / y = 1 ↔ x = 0) := by
  have hpos : 0 < y := Rat.lt_of_le_of_ne (Rat.le_trans h0 h1) (Ne.symm hy)
  have e : x / y * y = x := by
    rw [Rat.div_def, Rat.mul_assoc, Rat.inv_mul_cancel _ hy, Rat.mul_one]
  refine ⟨?_, ?_, ?_⟩
  · have : x / y ≤ 1 := by
      refine Rat.not_lt.1 fun hlt => ?_
      have := Rat.mul_lt_mul_of_pos_right hlt hpos
      rw [e, Rat.one_mul] at this
      exact absurd h1 (Rat.not_le.2 this)
    grind
  · have : 0 ≤ x / y := by
      refine Rat.not_lt.1 fun hlt => ?_
      have := Rat.mul_lt_mul_of_pos_right hlt hpos
      rw [e, Rat.zero_mul] at this
      exact absurd h0 (Rat.not_le.2 this)
    grind
  · constructor
    · intro h
      have : x / y = 0 := by grind
      rw [← e, this, Rat.zero_mul]
    · rintro rfl
      rw [Rat.div_def, Rat.zero_mul]
      grind

end Nisaba.Feature
