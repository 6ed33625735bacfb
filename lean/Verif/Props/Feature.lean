import Verif.Lemmas.Feature
import Verif.Data.Features
/-!
# C42, C43, C56: features, distances, ranges and membership

The objects are those of `Verif.Model.Feature`.  `WellNamed` says that the objects of an aspect are
different objects, that no two features and no feature and value list share an alias, and that no
alias is one that the aspect uses itself.
-/
namespace Nisaba.Props
open Nisaba.Feature

structure WellNamed (root : Val) (anyId naId : Nat) : Prop where
  ids : (nodeIds root).Nodup
  anyNew : anyId ∉ nodeIds root
  naNew : naId ∉ nodeIds root
  anyNa : anyId ≠ naId
  aliases : ((leaves root).map Feat.alias).Nodup
  lists : ∀ f ∈ leaves root, f.alias ∉ listAliases root
  reserved : ∀ k ∈ (leaves root).map Feat.alias ++ listAliases root,
    k ∉ ownFields ++ ["all", "any", "n_a"]

/-- No step of a value list is negative. -/
def StepsNonneg (root : Val) : Prop :=
  ∀ id al ty st items, Sub (.list id al ty st items) root → 0 ≤ st

namespace FeatureAux

theorem new_hasKey (k : String) : Aspect.new.hasKey k = true ↔ k ∈ ownFields := by
  simp [Aspect.hasKey, Aspect.new]

theorem eq_of_nodup_map {α β : Type} {f : α → β} {l : List α} (h : (l.map f).Nodup) {a b : α}
    (ha : a ∈ l) (hb : b ∈ l) (e : f a = f b) : a = b := by
  induction l with
  | nil => cases ha
  | cons x l ih =>
    simp only [List.map_cons, List.nodup_cons] at h
    rcases List.mem_cons.1 ha with e1 | ha'
    · rcases List.mem_cons.1 hb with e2 | hb'
      · rw [e1, e2]
      · exact absurd (List.mem_map.2 ⟨b, hb', by rw [← e, e1]⟩) h.1
    · rcases List.mem_cons.1 hb with e2 | hb'
      · exact absurd (List.mem_map.2 ⟨a, ha', by rw [e, e2]⟩) h.1
      · exact ih h.2 ha' hb'

def K (root : Val) : List String := (leaves root).map Feat.alias ++ listAliases root

theorem uok {root anyId naId} (h : WellNamed root anyId naId) : UOk (leaves root) (K root) where
  mem := fun f hf => List.mem_append_left _ (List.mem_map.2 ⟨f, hf, rfl⟩)
  alias := fun f hf g hg e => eq_of_nodup_map h.aliases hf hg e
  id := fun f hf g hg e =>
    eq_of_nodup_map (List.Nodup.sublist (leafIds_sublist root) h.ids) hf hg e

theorem inv_new {root anyId naId} (h : WellNamed root anyId naId) : AInv (leaves root) Aspect.new where
  free := by
    intro f hf
    refine .inr ?_
    rw [Bool.eq_false_iff]
    intro hk
    exact h.reserved f.alias (List.mem_append_left _ (List.mem_map.2 ⟨f, hf, rfl⟩))
      (List.mem_append_left _ ((new_hasKey _).1 hk))
  dnone := fun _ _ => rfl
  dsome := by intro n hn; simp [Aspect.new] at hn
  owned := by intro n; simp [Aspect.new]
  sub := by intro n hn; simp [Aspect.new] at hn

theorem base {root anyId naId} (h : WellNamed root anyId naId) :
    Res (leaves root) (K root) (triples root) Aspect.new (populateVal root Aspect.new) ∧
      ∀ f ∈ leaves root, f.id ∈ (populateVal root Aspect.new).members :=
  populateVal_res (uok h) root Aspect.new (inv_new h) (fun _ h => h)
    (fun al hal => ⟨List.mem_append_right _ hal, fun f hf e => h.lists f hf (e ▸ hal)⟩)

theorem field_append (A : Aspect) (k : String) (v : Field) (k' : String) :
    Aspect.field { A with fields := A.fields ++ [(k, v)] } k' =
      if A.hasKey k' then A.field k' else if k = k' then some v else none := by
  simp only [Aspect.field, Aspect.hasKey, List.find?_append]
  by_cases h : ∃ p ∈ A.fields, p.1 = k'
  · have h1 : (A.fields.any fun p => p.1 == k') = true := by
      obtain ⟨p, hp, e⟩ := h
      exact List.any_eq_true.2 ⟨p, hp, by simp [e]⟩
    have h2 : (A.fields.find? fun p => p.1 == k').isSome := by
      rw [List.find?_isSome]
      obtain ⟨p, hp, e⟩ := h
      exact ⟨p, hp, by simp [e]⟩
    obtain ⟨q, hq⟩ := Option.isSome_iff_exists.1 h2
    simp [h1, hq]
  · have h1 : (A.fields.any fun p => p.1 == k') = false := by
      rw [List.any_eq_false]
      intro p hp e
      exact h ⟨p, hp, by simpa using e⟩
    have h2 : A.fields.find? (fun p => p.1 == k') = none := by
      rw [List.find?_eq_none]
      intro p hp e
      exact h ⟨p, hp, by simpa using e⟩
    by_cases e : k = k' <;> simp [e, h2] <;> simp_all

theorem reserved_free {root anyId naId} (h : WellNamed root anyId naId) {k : String}
    (hk : k ∈ ["all", "any", "n_a"]) :
    (populateVal root Aspect.new).hasKey k = false := by
  rw [(base h).1.keys k ?_]
  · rw [Bool.eq_false_iff]
    intro h1
    have h2 := (new_hasKey k).1 h1
    revert hk h2
    clear h1 h
    simp only [List.mem_cons, List.not_mem_nil, or_false]
    rintro (rfl | rfl | rfl) h2 <;> revert h2 <;> decide
  · intro hm
    exact h.reserved k hm (List.mem_append_right _ hk)

/-- What the finished aspect looks like. -/
theorem populated {root anyId naId} (h : WellNamed root anyId naId) :
    let A₀ := populateVal root Aspect.new
    let A := Aspect.populate root anyId naId
    A.dict = A₀.dict ∧ A.maxDist = A₀.maxDist ∧ A.parents = A₀.parents ∧
      (∀ n, A.owned n = true ↔ n ∈ A₀.members ∨ n = anyId ∨ n = naId) ∧
      A.field "any" = some (.feature anyId) ∧ A.field "n_a" = some (.feature naId) := by
  intro A₀ A
  have ha := reserved_free h (k := "all") (by simp)
  have hy := reserved_free h (k := "any") (by simp)
  have hn := reserved_free h (k := "n_a") (by simp)
  have e1 : A₀.addSuppl "all" .set = { A₀ with fields := A₀.fields ++ [("all", .set)] } := by
    simp [Aspect.addSuppl, A₀, ha]
  have k1 : ∀ k, (A₀.addSuppl "all" .set).hasKey k = (A₀.hasKey k || "all" == k) := by
    intro k; rw [e1, hasKey_append]
  generalize hA1 : A₀.addSuppl "all" .set = A₁ at *
  have e2 : A₁.addSuppl "any" (.feature anyId) =
      { A₁ with fields := A₁.fields ++ [("any", .feature anyId)] } := by
    have : A₁.hasKey "any" = false := by rw [k1]; simp [A₀, hy]
    simp [Aspect.addSuppl, this]
  generalize hA2 : A₁.supplFeature ⟨anyId, "any"⟩ = A₂
  have f2 : A₂.fields = A₁.fields ++ [("any", .feature anyId)] := by
    rw [← hA2]; simp only [Aspect.supplFeature]; rw [e2]
  have k2 : ∀ k, A₂.hasKey k = (A₁.hasKey k || "any" == k) := by
    intro k; simp [Aspect.hasKey, f2, List.any_append]
  have e3 : A₂.addSuppl "n_a" (.feature naId) =
      { A₂ with fields := A₂.fields ++ [("n_a", .feature naId)] } := by
    have : A₂.hasKey "n_a" = false := by rw [k2, k1]; simp [A₀, hn]
    simp [Aspect.addSuppl, this]
  have eA : A = A₂.supplFeature ⟨naId, "n_a"⟩ := by
    simp only [A, Aspect.populate]
    rw [← hA2, ← hA1]
  have fA : A.fields = A₂.fields ++ [("n_a", .feature naId)] := by
    rw [eA]; simp only [Aspect.supplFeature]; rw [e3]
  have g : ∀ k, A.field k = if A₂.hasKey k then A₂.field k else
      if "n_a" = k then some (.feature naId) else none := by
    intro k
    rw [← field_append A₂]
    simp only [Aspect.field, fA]
  have g2 : ∀ k, A₂.field k = if A₁.hasKey k then A₁.field k else
      if "any" = k then some (.feature anyId) else none := by
    intro k
    rw [← field_append A₁]
    simp only [Aspect.field, f2]
  refine ⟨?_, ?_, ?_, ?_, ?_, ?_⟩
  · rw [eA]; simp only [Aspect.supplFeature]; rw [e3, ← hA2]; simp only [Aspect.supplFeature]
    rw [e2, e1]
  · rw [eA]; simp only [Aspect.supplFeature]; rw [e3, ← hA2]; simp only [Aspect.supplFeature]
    rw [e2, e1]
  · rw [eA]; simp only [Aspect.supplFeature]; rw [e3, ← hA2]; simp only [Aspect.supplFeature]
    rw [e2, e1]
  · intro n
    rw [eA]; simp only [Aspect.supplFeature]; rw [e3, ← hA2]; simp only [Aspect.supplFeature]
    rw [e2, e1]
    have := (base h).1.inv.owned n
    by_cases h1 : n = naId
    · simp [h1]
    · by_cases h2 : n = anyId
      · simp [h2]
      · simp only [if_neg h1, if_neg h2, h1, h2, or_false]
        exact this
  · rw [g, k2, g2, k1]
    simp [A₀, hy]
  · rw [g, k2, k1]
    simp [A₀, hn]

theorem leaf_ne {root : Val} {n : Nat} (hn : n ∈ leafIds root) {m : Nat} (hm : m ∉ nodeIds root) :
    n ≠ m := by
  rintro rfl
  obtain ⟨f, hf, e⟩ := List.mem_map.1 hn
  exact hm (e ▸ leaf_id_mem root hf)

/-- The distance of two different features is what was stored for them. -/
theorem distance_eq {root anyId naId} (h : WellNamed root anyId naId) {a b : Feat}
    (ha : a ∈ leaves root) (hb : b ∈ leaves root) (hne : a ≠ b) {d : Rat}
    (hd : (a, b, d) ∈ triples root ∨ (b, a, d) ∈ triples root) :
    (Aspect.populate root anyId naId).distance a.id b.id = some d := by
  obtain ⟨hdict, hmax, _, ho, hany, hna⟩ := populated h
  have ha' : a.id ∈ leafIds root := List.mem_map.2 ⟨a, ha, rfl⟩
  have hb' : b.id ∈ leafIds root := List.mem_map.2 ⟨b, hb, rfl⟩
  have oa := (ho a.id).2 (.inl ((base h).2 a ha))
  have ob := (ho b.id).2 (.inl ((base h).2 b hb))
  have hid : b.id ≠ a.id := fun e => hne ((uok h).id a ha b hb e.symm)
  have n1 := leaf_ne ha' h.anyNew
  have n2 := leaf_ne hb' h.anyNew
  have n3 := leaf_ne ha' h.naNew
  have n4 := leaf_ne hb' h.naNew
  have hg : (populateVal root Aspect.new).get a.id b.id = some d := by
    rw [(base h).1.get]
    refine foldl_upd_some (uok h) _ (fun t ht => triples_keys root ht) ha hb ?_ _ (.inr hd)
    intro d' h'
    have ku := triples_keyU root h.ids
    rcases hd with hd | hd
    · exact (ku a b d d' hd h').symm
    · exact (ku b a d d' hd h'.symm).symm
  unfold Aspect.distance
  simp only [oa, ob, hany, hna, hdict, hmax, Option.some.injEq, Field.feature.injEq]
  simp only [bne_self_eq_false, Bool.not_true, Bool.or_self, Bool.false_eq_true, if_false, hid,
    Ne.symm n1, Ne.symm n2, Ne.symm n3, Ne.symm n4, or_self]
  simp only [Aspect.get] at hg
  cases hdd : (populateVal root Aspect.new).dict a.id with
  | none => rw [hdd] at hg; simp at hg
  | some t =>
    rw [hdd] at hg
    simp only [Option.bind_some] at hg
    simp [hg]

theorem distance_self {root anyId naId} (h : WellNamed root anyId naId) {n : Nat}
    (hn : n ∈ leafIds root) : (Aspect.populate root anyId naId).distance n n = some 0 := by
  obtain ⟨_, _, _, ho, _, _⟩ := populated h
  obtain ⟨f, hf, rfl⟩ := List.mem_map.1 hn
  have oa := (ho f.id).2 (.inl ((base h).2 f hf))
  unfold Aspect.distance
  simp [oa]

theorem mem_triples {root : Val} (hn : (nodeIds root).Nodup) {id al ty st items}
    (hs : Sub (.list id al ty st items) root) {i j : Nat} {x y : Val} (hij : i ≠ j)
    (hi : items[i]? = some x) (hj : items[j]? = some y) {a b : Feat} (ha : a ∈ leaves x)
    (hb : b ∈ leaves y) :
    (a, b, gap ty st items.length i j) ∈ triples root ∨ (b, a, gap ty st items.length i j) ∈ triples root := by
  have hnl := nodup_sub hs hn
  simp only [nodeIds, List.nodup_cons] at hnl
  have hm := map_id_nodup hnl.2
  rcases Nat.lt_or_gt_of_ne hij with hlt | hlt
  · left
    have := triplesL_cross ty st items items hi hj hlt ha hb
    rw [listDistance_eq ty st hm hi hj hlt] at this
    exact triples_sub hs (by simpa only [triples] using this)
  · right
    have := triplesL_cross ty st items items hj hi hlt hb ha
    rw [listDistance_eq ty st hm hj hi hlt, gap_symm] at this
    exact triples_sub hs (by simpa only [triples] using this)

end FeatureAux
open FeatureAux

/-- C42: the distance between two features is the distance, in the list where their branches part,
between the places of those two branches: the step of an equidistant list, the number of places
between them times the step of a linear list, and the shorter way round of a cyclic list. -/
theorem C42_value_partial {root : Val} {anyId naId : Nat} (h : WellNamed root anyId naId)
    {id : Nat} {al : String} {ty : LType} {st : Rat} {items : List Val}
    (hs : Sub (.list id al ty st items) root) {i j : Nat} {x y : Val} (hij : i ≠ j)
    (hi : items[i]? = some x) (hj : items[j]? = some y) {a b : Nat} (ha : a ∈ leafIds x)
    (hb : b ∈ leafIds y) :
    (Aspect.populate root anyId naId).distance a b = some (gap ty st items.length i j) := by
  obtain ⟨f, hf, rfl⟩ := List.mem_map.1 ha
  obtain ⟨g, hg, rfl⟩ := List.mem_map.1 hb
  have hx := List.mem_of_getElem? hi
  have hy := List.mem_of_getElem? hj
  have hfr : f ∈ leaves root := leaves_sub.2 ((leaves_sub.1 hf).trans ((Sub.step hx (.refl _)).trans hs))
  have hgr : g ∈ leaves root := leaves_sub.2 ((leaves_sub.1 hg).trans ((Sub.step hy (.refl _)).trans hs))
  refine distance_eq h hfr hgr ?_ (mem_triples h.ids hs hij hi hj hf hg)
  rintro rfl
  have hnl := nodup_sub hs h.ids
  simp only [nodeIds, List.nodup_cons] at hnl
  have := item_unique hnl.2 hx hy (leaf_id_mem x hf) (leaf_id_mem y hg)
  subst this
  have hm := map_id_nodup hnl.2
  exact hij ((indexOf_eq hm hi).symm.trans (indexOf_eq hm hj))

/-- C42: symmetric. -/
theorem C42_symmetric_partial {root : Val} {anyId naId : Nat} (h : WellNamed root anyId naId)
    {a b : Nat} (ha : a ∈ leafIds root) (hb : b ∈ leafIds root) :
    (Aspect.populate root anyId naId).distance a b = (Aspect.populate root anyId naId).distance b a := by
  obtain ⟨f, hf, rfl⟩ := List.mem_map.1 ha
  obtain ⟨g, hg, rfl⟩ := List.mem_map.1 hb
  by_cases e : f = g
  · rw [e]
  · obtain ⟨id, al, ty, st, items, hs, i, j, x, y, hij, hi, hj, hx, hy⟩ := exists_split root hf hg e
    rw [distance_eq h hf hg e (mem_triples h.ids hs hij hi hj hx hy),
      distance_eq h hg hf (Ne.symm e) (mem_triples h.ids hs hij hi hj hx hy).symm]

/-- C42: a feature of the aspect (`any` and `n_a` included) has the error distance to a feature of
another aspect, either way round, and so have two features of other aspects here. -/
theorem C42_other_aspect_partial {root : Val} {anyId naId : Nat} (h : WellNamed root anyId naId)
    (a : Nat) {b : Nat} (hb : b ∉ leafIds root) (hb1 : b ≠ anyId) (hb2 : b ≠ naId) :
    (Aspect.populate root anyId naId).distance a b = some errorDistance ∧
      (Aspect.populate root anyId naId).distance b a = some errorDistance := by
  obtain ⟨_, _, _, ho, _, _⟩ := populated h
  have hn : (Aspect.populate root anyId naId).owned b = false := by
    rw [← Bool.not_eq_true, ho]
    rintro (hm | hm | hm)
    · obtain ⟨f, hf, rfl⟩ := (base h).1.inv.sub b hm
      exact hb (List.mem_map_of_mem hf)
    · exact hb1 hm
    · exact hb2 hm
  unfold Aspect.distance
  rw [hn]
  cases (Aspect.populate root anyId naId).owned a <;> simp

/-- C42: `ValueList.distance` of two values of the list that stand apart is their gap if the first
stands first, and the error distance if one of them is not in the list. -/
theorem C42_list (ty : LType) (st : Rat) {items : List Val} (hn : (items.map Val.id).Nodup) (v w : Nat) :
    (∀ (i j : Nat) (x y : Val), items[i]? = some x → items[j]? = some y → x.id = v → y.id = w → i < j →
      listDistance ty st items v w = gap ty st items.length i j) ∧
    ((∀ x ∈ items, x.id ≠ v) ∨ (∀ x ∈ items, x.id ≠ w) →
      listDistance ty st items v w = errorDistance) := by
  refine ⟨?_, ?_⟩
  · rintro i j x y hi hj rfl rfl hij
    exact listDistance_eq ty st hn hi hj hij
  · intro h
    unfold listDistance
    rw [if_pos]
    simp only [Bool.or_eq_true, Bool.not_eq_true', List.any_eq_false, beq_iff_eq]
    exact h.imp (fun h x hx => h x hx) (fun h x hx => h x hx)

/-- C42: with non-negative steps every distance is at least zero and at most the aspect's maximum,
and the distance to itself is zero. -/
theorem C42_bounds_partial {root : Val} {anyId naId : Nat} (h : WellNamed root anyId naId)
    (hst : StepsNonneg root) {a b : Nat} (ha : a ∈ leafIds root) (hb : b ∈ leafIds root) :
    ∃ d, (Aspect.populate root anyId naId).distance a b = some d ∧ 0 ≤ d ∧
      d ≤ (Aspect.populate root anyId naId).maxDist ∧ (a = b → d = 0) := by
  obtain ⟨_, hmax, _⟩ := populated h
  obtain ⟨f, hf, rfl⟩ := List.mem_map.1 ha
  obtain ⟨g, hg, rfl⟩ := List.mem_map.1 hb
  have hM := maxFold_ge (triples root) Aspect.new.maxDist
  by_cases e : f = g
  · subst e
    refine ⟨0, distance_self h ha, Rat.le_refl, ?_, fun _ => rfl⟩
    rw [hmax, (base h).1.max]
    exact hM.1
  · obtain ⟨id, al, ty, st, items, hs, i, j, x, y, hij, hi, hj, hx, hy⟩ := exists_split root hf hg e
    have hm := mem_triples h.ids hs hij hi hj hx hy
    refine ⟨_, distance_eq h hf hg e hm, gap_nonneg ty (hst _ _ _ _ _ hs) _ _ _, ?_, ?_⟩
    · rw [hmax, (base h).1.max]
      rcases hm with hm | hm
      · exact hM.2 _ hm
      · exact hM.2 _ hm
    · intro he
      exact absurd ((uok h).id f hf g hg he) e

/-- C42: 'any' is at distance zero and 'not applicable' at the maximal distance from every feature,
on both sides. -/
theorem C42_any_na_partial {root : Val} {anyId naId : Nat} (h : WellNamed root anyId naId)
    {a : Nat} (ha : a ∈ leafIds root) :
    let A := Aspect.populate root anyId naId
    A.distance a anyId = some 0 ∧ A.distance anyId a = some 0 ∧
      A.distance a naId = some A.maxDist ∧ A.distance naId a = some A.maxDist := by
  intro A
  obtain ⟨_, _, _, ho, hany, hna⟩ := populated h
  obtain ⟨f, hf, rfl⟩ := List.mem_map.1 ha
  have oa := (ho f.id).2 (.inl ((base h).2 f hf))
  have o1 := (ho anyId).2 (.inr (.inl rfl))
  have o2 := (ho naId).2 (.inr (.inr rfl))
  have n1 := leaf_ne ha h.anyNew
  have n2 := leaf_ne ha h.naNew
  have n3 := h.anyNa
  simp only [A, Aspect.distance, oa, o1, o2, hany, hna, Option.some.injEq, Field.feature.injEq]
  simp [n1, n2, n3, Ne.symm n1, Ne.symm n2, Ne.symm n3]

/-- C42: the maximum is attained by two features (if there are two). -/
theorem C42_max_attained_partial {root : Val} {anyId naId : Nat} (h : WellNamed root anyId naId)
    (hst : StepsNonneg root) {a b : Nat} (ha : a ∈ leafIds root) (hb : b ∈ leafIds root)
    (hab : a ≠ b) :
    ∃ x ∈ leafIds root, ∃ y ∈ leafIds root, x ≠ y ∧
      (Aspect.populate root anyId naId).distance x y = some (Aspect.populate root anyId naId).maxDist := by
  obtain ⟨_, hmax, _⟩ := populated h
  rcases maxFold_attained (triples root) Aspect.new.maxDist with h0 | ⟨t, ht, h0⟩
  · obtain ⟨d, hd, h1, h2, _⟩ := C42_bounds_partial h hst ha hb
    refine ⟨a, ha, b, hb, hab, ?_⟩
    have e : (Aspect.populate root anyId naId).maxDist = 0 := by
      rw [hmax, (base h).1.max, h0]; rfl
    rw [hd, e]
    rw [e] at h2
    rw [Rat.le_antisymm h2 h1]
  · obtain ⟨x, y, d⟩ := t
    have hk := triples_keys root ht
    have e : x ≠ y := triples_ne root h.ids ht
    refine ⟨x.id, List.mem_map.2 ⟨x, hk.1, rfl⟩, y.id, List.mem_map.2 ⟨y, hk.2, rfl⟩, ?_, ?_⟩
    · exact fun e' => e ((uok h).id x hk.1 y hk.2 e')
    · rw [distance_eq h hk.1 hk.2 e (.inl ht), hmax, (base h).1.max, h0]

namespace FeatureAux

theorem minFold (g : Nat → Rat) (l : List Nat) : ∀ m : Rat,
    l.foldl (fun m x => min m (g x)) m ≤ m ∧ (∀ x ∈ l, l.foldl (fun m x => min m (g x)) m ≤ g x) ∧
      (l.foldl (fun m x => min m (g x)) m = m ∨
        ∃ x ∈ l, l.foldl (fun m x => min m (g x)) m = g x) := by
  induction l with
  | nil => intro m; exact ⟨Rat.le_refl, by simp, .inl rfl⟩
  | cons x l ih =>
    intro m
    simp only [List.foldl_cons]
    obtain ⟨h1, h2, h3⟩ := ih (min m (g x))
    have h4 : min m (g x) ≤ m ∧ min m (g x) ≤ g x ∧ (min m (g x) = m ∨ min m (g x) = g x) := by
      grind
    refine ⟨Rat.le_trans h1 h4.1, ?_, ?_⟩
    · intro y hy
      rcases List.mem_cons.1 hy with rfl | hy
      · exact Rat.le_trans h1 h4.2.1
      · exact h2 y hy
    · rcases h3 with h3 | ⟨y, hy, h3⟩
      · rcases h4.2.2 with h5 | h5
        · exact .inl (h3.trans h5)
        · exact .inr ⟨x, by simp, h3.trans h5⟩
      · exact .inr ⟨y, by simp [hy], h3⟩

/-- `m` is the least distance between a member of `s` and a member of `t`, at most
`errorDistance`. -/
structure Least (dist : Nat → Nat → Rat) (s t : List Nat) (m : Rat) : Prop where
  le_error : m ≤ errorDistance
  le : ∀ x ∈ s, ∀ y ∈ t, m ≤ dist y x
  attained : m = errorDistance ∨ ∃ x ∈ s, ∃ y ∈ t, m = dist y x

theorem featSet_least {dist : Nat → Nat → Rat} (h0 : ∀ x, dist x x = 0)
    (hn : ∀ x y, 0 ≤ dist x y) (f : Nat) (s : List Nat) :
    Least dist s [f] (featSetDistance dist f s) := by
  unfold featSetDistance
  split
  · rename_i hc
    have hc : f ∈ s := by simpa using hc
    refine ⟨by decide +kernel, ?_, .inr ⟨f, hc, f, by simp, (h0 f).symm⟩⟩
    intro x _ y _
    exact hn y x
  · obtain ⟨h1, h2, h3⟩ := minFold (dist f) s errorDistance
    refine ⟨h1, ?_, ?_⟩
    · intro x hx y hy
      simp only [List.mem_singleton] at hy
      subst hy
      exact h2 x hx
    · rcases h3 with h3 | ⟨x, hx, h3⟩
      · exact .inl h3
      · exact .inr ⟨x, hx, f, by simp, h3⟩

theorem loop_least {dist : Nat → Nat → Rat} (h0 : ∀ x, dist x x = 0)
    (hn : ∀ x y, 0 ≤ dist x y) (s : List Nat) : ∀ (ts ds : List Nat) (m : Rat),
    Least dist s ds m → Least dist s (ds ++ ts) (setDistanceLoop dist s ts m)
  | [], ds, m, h => by simpa [setDistanceLoop] using h
  | f :: ts, ds, m, h => by
    have zero : (∃ x ∈ s, 0 = dist f x) → Least dist s (ds ++ f :: ts) 0 := by
      rintro ⟨x, hx, e⟩
      exact ⟨by decide +kernel, fun _ _ _ _ => hn _ _, .inr ⟨x, hx, f, by simp, e⟩⟩
    simp only [setDistanceLoop]
    split
    · rename_i hc
      exact zero ⟨f, by simpa using hc, (h0 f).symm⟩
    · have hl := featSet_least h0 hn f s
      split
      · rename_i hd
        rw [hd] at hl
        apply zero
        rcases hl.attained with e | ⟨x, hx, y, hy, e⟩
        · exact absurd e (by decide +kernel)
        · simp only [List.mem_singleton] at hy
          exact ⟨x, hx, hy ▸ e⟩
      · have e : ds ++ f :: ts = (ds ++ [f]) ++ ts := by simp
        rw [e]
        apply loop_least h0 hn s ts (ds ++ [f])
        refine ⟨?_, ?_, ?_⟩
        · split
          · exact hl.le_error
          · exact h.le_error
        · intro x hx y hy
          rcases List.mem_append.1 hy with hy | hy
          · have := h.le x hx y hy
            split
            · grind
            · exact this
          · have := hl.le x hx y hy
            split
            · exact this
            · grind
        · split
          · rcases hl.attained with h1 | ⟨x, hx, y, hy, h1⟩
            · exact .inl h1
            · exact .inr ⟨x, hx, y, List.mem_append_right _ hy, h1⟩
          · rcases h.attained with h1 | ⟨x, hx, y, hy, h1⟩
            · exact .inl h1
            · exact .inr ⟨x, hx, y, List.mem_append_left _ hy, h1⟩

theorem Least.unique {dist : Nat → Nat → Rat} {s t : List Nat} {m m' : Rat}
    (h : Least dist s t m) (h' : Least dist s t m') : m = m' := by
  have key : ∀ {m m' : Rat}, Least dist s t m → Least dist s t m' → m ≤ m' := by
    intro m m' h h'
    rcases h'.attained with e | ⟨x, hx, y, hy, e⟩
    · rw [e]; exact h.le_error
    · rw [e]; exact h.le x hx y hy
  exact Rat.le_antisymm (key h h') (key h' h)

theorem Least.swap {dist : Nat → Nat → Rat} (hs : ∀ x y, dist x y = dist y x) {s t : List Nat} {m : Rat}
    (h : Least dist s t m) : Least dist t s m := by
  refine ⟨h.le_error, fun x hx y hy => by rw [hs]; exact h.le y hy x hx, ?_⟩
  rcases h.attained with e | ⟨x, hx, y, hy, e⟩
  · exact .inl e
  · exact .inr ⟨y, hy, x, hx, by rw [e, hs]⟩

theorem setDistance_least {dist : Nat → Nat → Rat} (h0 : ∀ x, dist x x = 0)
    (hn : ∀ x y, 0 ≤ dist x y) (s t : List Nat) : Least dist s t (setDistance dist s t) :=
  loop_least h0 hn s t [] errorDistance ⟨Rat.le_refl, by simp, .inl rfl⟩

end FeatureAux

/-- C42: the distance of two sets is the least distance between a member of one and a member of the
other, capped by the error distance (which is the result when one of them is empty), whatever the
order in which Python iterates over the sets; for every distance of features that is non-negative
and zero against itself. -/
theorem C42_set_least {dist : Nat → Nat → Rat} (h0 : ∀ x, dist x x = 0) (hn : ∀ x y, 0 ≤ dist x y)
    (s t : List Nat) :
    setDistance dist s t ≤ errorDistance ∧ (∀ x ∈ s, ∀ y ∈ t, setDistance dist s t ≤ dist y x) ∧
      (setDistance dist s t = errorDistance ∨ ∃ x ∈ s, ∃ y ∈ t, setDistance dist s t = dist y x) :=
  ⟨(setDistance_least h0 hn s t).le_error, (setDistance_least h0 hn s t).le,
    (setDistance_least h0 hn s t).attained⟩

/-- C42: the distance of two sets is symmetric when the distance of features is. -/
theorem C42_set_symmetric {dist : Nat → Nat → Rat} (h0 : ∀ x, dist x x = 0) (hn : ∀ x y, 0 ≤ dist x y)
    (hs : ∀ x y, dist x y = dist y x) (s t : List Nat) :
    setDistance dist s t = setDistance dist t s :=
  (setDistance_least h0 hn s t).unique ((setDistance_least h0 hn t s).swap hs)

/-! ## Ranges -/

namespace FeatureAux

theorem parents_eq {root : Val} {anyId naId : Nat} (h : WellNamed root anyId naId)
    {id : Nat} {al : String} {ty : LType} {st : Rat} {items : List Val}
    (hs : Sub (.list id al ty st items) root) {w : Val} (hw : w ∈ items) :
    (Aspect.populate root anyId naId).parents w.id =
      id :: (Aspect.populate root anyId naId).parents id := by
  obtain ⟨_, _, hp, _⟩ := populated h
  rw [hp]
  exact populateVal_parents root Aspect.new h.ids hs w hw

theorem mem_leafIdsL {vs : List Val} {n : Nat} : n ∈ leafIdsL vs ↔ ∃ v ∈ vs, n ∈ leafIds v := by
  simp only [leafIdsL, leafIds, List.mem_map, mem_leavesL_iff]
  constructor
  · rintro ⟨f, ⟨v, hv, hf⟩, e⟩
    exact ⟨v, hv, f, hf, e⟩
  · rintro ⟨v, hv, f, hf, e⟩
    exact ⟨f, ⟨v, hv, hf⟩, e⟩

theorem mem_slice {vs : List Val} {i j : Nat} {v : Val} :
    v ∈ (vs.take j).drop i ↔ ∃ (k : Nat), i ≤ k ∧ k < j ∧ vs[k]? = some v := by
  rw [List.mem_iff_getElem?]
  simp only [List.getElem?_drop, List.getElem?_take]
  constructor
  · rintro ⟨k, hk⟩
    split at hk
    · exact ⟨i + k, by omega, by assumption, hk⟩
    · cases hk
  · rintro ⟨k, h1, h2, h3⟩
    refine ⟨k - i, ?_⟩
    have : i + (k - i) = k := by omega
    rw [this, if_pos h2, h3]

/-- The list on which `range` is called, without the tests on the parents. -/
theorem range_eq {root : Val} {anyId naId : Nat} (h : WellNamed root anyId naId)
    {id : Nat} {al : String} {ty : LType} {st : Rat} {items : List Val}
    (hs : Sub (.list id al ty st items) root) {i j : Nat} {x y : Val}
    (hi : items[i]? = some x) (hj : items[j]? = some y) :
    range (Aspect.populate root anyId naId) id items x y =
      (if i < j then .ok (leafIdsL ((items.take (max i j)).drop (min i j + 1)) ++ leafIds x ++ leafIds y)
      else .ok ((leafIdsL items).filter
        (fun n => !(leafIdsL ((items.take (max i j)).drop (min i j + 1))).contains n))) := by
  have hx := List.mem_of_getElem? hi
  have hy := List.mem_of_getElem? hj
  have hnl := nodup_sub hs h.ids
  simp only [nodeIds, List.nodup_cons] at hnl
  have hm := map_id_nodup hnl.2
  unfold range
  rw [parents_eq h hs hx, parents_eq h hs hy]
  simp only [ne_eq, not_true_eq_false, if_false, any_id hi, any_id hj, indexOf_eq hm hi,
    indexOf_eq hm hj, Bool.not_true, Bool.or_self, Bool.false_eq_true]

theorem place_unique {items : List Val} (hn : (nodeIdsL items).Nodup) {i j : Nat} {x y : Val}
    (hi : items[i]? = some x) (hj : items[j]? = some y) {n : Nat} (hx : n ∈ leafIds x)
    (hy : n ∈ leafIds y) : i = j := by
  obtain ⟨f, hf, e⟩ := List.mem_map.1 hx
  obtain ⟨g, hg, e'⟩ := List.mem_map.1 hy
  have := item_unique hn (List.mem_of_getElem? hi) (List.mem_of_getElem? hj)
    (e ▸ leaf_id_mem x hf) (e' ▸ leaf_id_mem y hg)
  subst this
  have hm := map_id_nodup hn
  exact (indexOf_eq hm hi).symm.trans (indexOf_eq hm hj)

end FeatureAux

/-- C43: if the first value comes before the last one, the range contains exactly the features of
the values from the first to the last place. -/
theorem C43_forward_partial {root : Val} {anyId naId : Nat} (h : WellNamed root anyId naId)
    {id : Nat} {al : String} {ty : LType} {st : Rat} {items : List Val}
    (hs : Sub (.list id al ty st items) root) {i j : Nat} {x y : Val}
    (hi : items[i]? = some x) (hj : items[j]? = some y) (hij : i < j) :
    ∃ s, range (Aspect.populate root anyId naId) id items x y = .ok s ∧
      ∀ n, n ∈ s ↔ ∃ (k : Nat) (v : Val), i ≤ k ∧ k ≤ j ∧ items[k]? = some v ∧ n ∈ leafIds v := by
  refine ⟨_, by rw [range_eq h hs hi hj, if_pos hij], ?_⟩
  intro n
  have e1 : max i j = j := by omega
  have e2 : min i j = i := by omega
  simp only [e1, e2, List.mem_append, mem_leafIdsL, mem_slice]
  constructor
  · rintro ((⟨v, ⟨k, h1, h2, h3⟩, hv⟩ | hv) | hv)
    · exact ⟨k, v, by omega, by omega, h3, hv⟩
    · exact ⟨i, x, by omega, by omega, hi, hv⟩
    · exact ⟨j, y, by omega, by omega, hj, hv⟩
  · rintro ⟨k, v, h1, h2, h3, hv⟩
    rcases Nat.lt_or_ge i k with h4 | h4
    · rcases Nat.lt_or_ge k j with h5 | h5
      · exact .inl (.inl ⟨v, ⟨k, by omega, h5, h3⟩, hv⟩)
      · have : k = j := by omega
        subst this
        rw [hj] at h3
        exact .inr ((Option.some.inj h3) ▸ hv)
    · have : k = i := by omega
      subst this
      rw [hi] at h3
      exact .inl (.inr ((Option.some.inj h3) ▸ hv))

/-- C43: if the first value comes after the last one, the range goes round the end of the list,
whatever the type of the list. -/
theorem C43_round_partial {root : Val} {anyId naId : Nat} (h : WellNamed root anyId naId)
    {id : Nat} {al : String} {ty : LType} {st : Rat} {items : List Val}
    (hs : Sub (.list id al ty st items) root) {i j : Nat} {x y : Val}
    (hi : items[i]? = some x) (hj : items[j]? = some y) (hij : j < i) :
    ∃ s, range (Aspect.populate root anyId naId) id items x y = .ok s ∧
      ∀ n, n ∈ s ↔ ∃ (k : Nat) (v : Val), (i ≤ k ∨ k ≤ j) ∧ items[k]? = some v ∧ n ∈ leafIds v := by
  refine ⟨_, by rw [range_eq h hs hi hj, if_neg (by omega)], ?_⟩
  intro n
  have hnl := nodup_sub hs h.ids
  simp only [nodeIds, List.nodup_cons] at hnl
  have e1 : max i j = i := by omega
  have e2 : min i j = j := by omega
  simp only [e1, e2, List.mem_filter, mem_leafIdsL, Bool.not_eq_true', List.contains_eq_mem,
    decide_eq_false_iff_not, mem_slice]
  constructor
  · rintro ⟨⟨v, hv, hn⟩, hno⟩
    obtain ⟨k, hk⟩ := List.mem_iff_getElem?.1 hv
    refine ⟨k, v, ?_, hk, hn⟩
    rcases Nat.lt_or_ge k i with h1 | h1
    · rcases Nat.lt_or_ge j k with h2 | h2
      · exact absurd ⟨v, ⟨k, by omega, h1, hk⟩, hn⟩ hno
      · exact .inr h2
    · exact .inl h1
  · rintro ⟨k, v, hk, hv, hn⟩
    refine ⟨⟨v, List.mem_of_getElem? hv, hn⟩, ?_⟩
    rintro ⟨w, ⟨k', h1, h2, h3⟩, hw⟩
    have := place_unique hnl.2 hv h3 hn hw
    omega

/-- C43 fails for a range that starts and ends at the same value: the result is the whole list. -/
theorem C43_same_value_is_whole_list {root : Val} {anyId naId : Nat} (h : WellNamed root anyId naId)
    {id : Nat} {al : String} {ty : LType} {st : Rat} {items : List Val}
    (hs : Sub (.list id al ty st items) root) {x : Val} (hx : x ∈ items) :
    ∃ s, range (Aspect.populate root anyId naId) id items x x = .ok s ∧
      ∀ n, n ∈ s ↔ ∃ v ∈ items, n ∈ leafIds v := by
  obtain ⟨i, hi⟩ := List.mem_iff_getElem?.1 hx
  refine ⟨_, by rw [range_eq h hs hi hi, if_neg (by omega)], ?_⟩
  intro n
  have e : (items.take (max i i)).drop (min i i + 1) = [] := by
    rw [List.drop_eq_nil_iff]
    simp only [List.length_take]
    omega
  rw [e]
  simp [leafIdsL, leavesL, mem_leavesL_iff, leafIds]
  constructor
  · rintro ⟨f, ⟨v, hv, hf⟩, rfl⟩
    exact ⟨v, hv, f, hf, rfl⟩
  · rintro ⟨v, hv, f, hf, rfl⟩
    exact ⟨f, ⟨v, hv, hf⟩, rfl⟩

/-- C43: if one of the two is a value of another list of the aspect, the range is empty. -/
theorem C43_other_list {root : Val} {anyId naId : Nat} (h : WellNamed root anyId naId)
    {id id' : Nat} {al al' : String} {ty ty' : LType} {st st' : Rat} {items items' : List Val}
    (hs : Sub (.list id al ty st items) root) (hs' : Sub (.list id' al' ty' st' items') root)
    (hne : id ≠ id') {x y : Val} (hx : x ∈ items) (hy : y ∈ items') :
    range (Aspect.populate root anyId naId) id items x y = .ok [] ∧
      range (Aspect.populate root anyId naId) id items y x = .ok [] := by
  unfold range
  rw [parents_eq h hs hx, parents_eq h hs' hy]
  simp [Ne.symm hne]

/-! ## Membership -/

namespace FeatureAux

/-- The parents of a node are the lists above it. -/
theorem parents_above {root : Val} {anyId naId : Nat} (h : WellNamed root anyId naId)
    {L w : Val} (hL : Sub L root) (hw : Sub w L) (hne : w ≠ L) :
    L.id ∈ (Aspect.populate root anyId naId).parents w.id := by
  induction hw with
  | refl => exact absurd rfl hne
  | @step v id al ty st items hv hs ih =>
    have hp := parents_eq h hL hv
    have hvr : Sub v root := (Sub.step hv (.refl _)).trans hL
    by_cases e : w = v
    · rw [e, hp]
      simp [Val.id]
    · have := ih hvr e
      exact up h hvr (hs) (by
        rw [hp]
        exact List.mem_cons_self ..) e
where
  up {root : Val} {anyId naId : Nat} (h : WellNamed root anyId naId) {v w : Val} (hv : Sub v root)
      (hw : Sub w v) {n : Nat} (hn : n ∈ (Aspect.populate root anyId naId).parents v.id)
      (hne : w ≠ v) : n ∈ (Aspect.populate root anyId naId).parents w.id := by
    clear hne
    induction hw with
    | refl => exact hn
    | @step u id al ty st items hu hs ih =>
      refine ih ((Sub.step hu (.refl _)).trans hv) ?_
      rw [parents_eq h hv hu]
      exact List.mem_cons_of_mem _ hn

theorem parents_root {root : Val} {anyId naId : Nat} (h : WellNamed root anyId naId) :
    (Aspect.populate root anyId naId).parents root.id = [] := by
  obtain ⟨_, _, hp, _⟩ := populated h
  rw [hp, populateVal_parents_other]
  · rfl
  · rintro id al ty st items rfl
    have := h.ids
    simp only [nodeIds, List.nodup_cons] at this
    exact this.1

/-- Every parent of a node is a list above it. -/
theorem above_parents {root : Val} {anyId naId : Nat} (h : WellNamed root anyId naId) :
    ∀ (v : Val), Sub v root →
      (∀ n ∈ (Aspect.populate root anyId naId).parents v.id, ∃ L, Sub L root ∧ L.id = n ∧ Sub v L) →
      ∀ {w : Val}, Sub w v → ∀ n ∈ (Aspect.populate root anyId naId).parents w.id,
        ∃ L, Sub L root ∧ L.id = n ∧ Sub w L := by
  intro v hv hp w hw
  induction hw with
  | refl => exact hp
  | @step u id al ty st items hu hs ih =>
    refine ih ((Sub.step hu (.refl _)).trans hv) ?_
    intro n hn
    rw [parents_eq h hv hu] at hn
    rcases List.mem_cons.1 hn with e | hn
    · exact ⟨_, hv, e.symm, .step hu (.refl _)⟩
    · obtain ⟨L, h1, h2, h3⟩ := hp n hn
      exact ⟨L, h1, h2, (Sub.step hu (.refl _)).trans h3⟩

end FeatureAux

/-- C56: a set of features of the aspect has the feature, or a feature of the value list, `L`
exactly if one of the features below `L` is in the set. -/
theorem C56_has_feature {root : Val} {anyId naId : Nat} (h : WellNamed root anyId naId)
    {L : Val} (hL : Sub L root) (s : List Nat) (hs : ∀ n ∈ s, n ∈ leafIds root) :
    hasFeature (Aspect.populate root anyId naId) s L.id = true ↔ ∃ n ∈ s, n ∈ leafIds L := by
  have leafSub : ∀ n ∈ s, ∃ f : Feat, f.id = n ∧ Sub (.feat f) root := by
    intro n hn
    obtain ⟨f, hf, e⟩ := List.mem_map.1 (hs n hn)
    exact ⟨f, e, leaves_sub.1 hf⟩
  simp only [hasFeature, Bool.or_eq_true, List.contains_iff_mem, List.any_eq_true]
  constructor
  · rintro (h1 | ⟨n, hn, h1⟩)
    · obtain ⟨f, e, hf⟩ := leafSub _ h1
      have : L = .feat f := sub_unique h.ids hL hf e.symm
      exact ⟨L.id, h1, by rw [this]; simp [leafIds, leaves, Val.id]⟩
    · obtain ⟨f, e, hf⟩ := leafSub n hn
      have e' : (Val.feat f).id = n := e
      rw [← e'] at h1
      obtain ⟨M, hM, hid, hMs⟩ := above_parents h root (.refl _)
        (by rw [parents_root h]; simp) hf _ h1
      have : M = L := sub_unique h.ids hM hL hid
      subst this
      exact ⟨n, hn, List.mem_map.2 ⟨f, leaves_sub.2 hMs, e⟩⟩
  · rintro ⟨n, hn, hl⟩
    obtain ⟨f, hf, e⟩ := List.mem_map.1 hl
    by_cases hc : L = .feat f
    · left
      rw [hc]
      rw [← e] at hn
      exact hn
    · right
      refine ⟨n, hn, ?_⟩
      have := parents_above h hL (leaves_sub.1 hf) (Ne.symm hc)
      exact e ▸ this

/-! ## The aspects of the repository -/

namespace FeatureAux

mutual
def stepsOk : Val → Bool
  | .feat _ => true
  | .list _ _ _ st items => decide (0 ≤ st) && stepsOkL items
def stepsOkL : List Val → Bool
  | [] => true
  | v :: vs => stepsOk v && stepsOkL vs
end

theorem stepsOkL_mem {vs : List Val} (h : stepsOkL vs = true) {v : Val} (hv : v ∈ vs) :
    stepsOk v = true := by
  induction vs with
  | nil => cases hv
  | cons w ws ih =>
    simp only [stepsOkL, Bool.and_eq_true] at h
    rcases List.mem_cons.1 hv with e | hv
    · rw [e]; exact h.1
    · exact ih h.2 hv

theorem stepsOk_sound {v w : Val} (hs : Sub w v) (h : stepsOk v = true) : stepsOk w = true := by
  induction hs with
  | refl => exact h
  | step hv _ ih =>
    simp only [stepsOk, Bool.and_eq_true] at h
    exact ih (stepsOkL_mem h.2 hv)

theorem steps_of {root : Val} (h : stepsOk root = true) : StepsNonneg root := by
  intro id al ty st items hs
  have := stepsOk_sound hs h
  simp only [stepsOk, Bool.and_eq_true, decide_eq_true_eq] at this
  exact this.1

def wellNamedB (root : Val) (anyId naId : Nat) : Bool :=
  decide (nodeIds root).Nodup && !(nodeIds root).contains anyId && !(nodeIds root).contains naId &&
    decide (anyId ≠ naId) && decide ((leaves root).map Feat.alias).Nodup &&
    (leaves root).all (fun f => !(listAliases root).contains f.alias) &&
    ((leaves root).map Feat.alias ++ listAliases root).all
      (fun k => !(ownFields ++ ["all", "any", "n_a"]).contains k)

theorem wellNamed_of {root : Val} {anyId naId : Nat} (h : wellNamedB root anyId naId = true) :
    WellNamed root anyId naId := by
  simp only [wellNamedB, Bool.and_eq_true, decide_eq_true_eq, Bool.not_eq_true', List.all_eq_true,
    List.contains_eq_mem, decide_eq_false_iff_not] at h
  obtain ⟨⟨⟨⟨⟨⟨h1, h2⟩, h3⟩, h4⟩, h5⟩, h6⟩, h7⟩ := h
  exact ⟨h1, h2, h3, h4, h5, h6, h7⟩

end FeatureAux

/-- C42 for every aspect defined in the repository: distances are symmetric, between zero and the
maximum, and the hypotheses of the general theorems hold. -/
theorem C42_repository : ∀ root ∈ Data.aspects, WellNamed root 1000 1001 ∧ StepsNonneg root ∧
    ∀ a ∈ leafIds root, ∀ b ∈ leafIds root, ∃ d,
      (Aspect.populate root 1000 1001).distance a b = some d ∧
      (Aspect.populate root 1000 1001).distance b a = some d ∧ 0 ≤ d ∧
      d ≤ (Aspect.populate root 1000 1001).maxDist := by
  intro root hr
  have h : (Data.aspects.all (fun r => wellNamedB r 1000 1001 && stepsOk r)) = true := by
    decide +kernel
  have h' := List.all_eq_true.1 h root hr
  simp only [Bool.and_eq_true] at h'
  have hw := wellNamed_of h'.1
  have hs := steps_of h'.2
  refine ⟨hw, hs, ?_⟩
  intro a ha b hb
  obtain ⟨d, h1, h2, h3, _⟩ := C42_bounds_partial hw hs ha hb
  exact ⟨d, h1, (C42_symmetric_partial hw ha hb).symm.trans h1, h2, h3⟩

/-- `manner`: the features `sibilant` (5) and `non_sibilant` (7) of the list `amplitude` are half a
step apart, `stop` (1) and `trill` are two apart. -/
example : (Aspect.populate Data.manner 1000 1001).distance 5 7 = some (1/2) := by
  have hw := (C42_repository Data.manner (by simp [Data.aspects])).1
  have hs : Sub (.list 4 "amplitude" .linear (1/4)
      [.feat ⟨5, "sibilant"⟩, .feat ⟨6, "strident"⟩, .feat ⟨7, "non_sibilant"⟩]) Data.manner :=
    .step (List.mem_cons_of_mem _ (List.mem_cons_self ..))
      (.step (List.mem_cons_of_mem _ (List.mem_cons_self ..)) (.refl _))
  have := C42_value_partial hw hs (i := 0) (j := 2) (by decide) rfl rfl (a := 5) (b := 7)
    (by decide) (by decide)
  rw [this]
  decide +kernel

example : setDistance (fun x y => if x = y then 0 else 2) [1, 2] [3, 4] = 2 ∧
    setDistance (fun x y => if x = y then 0 else 2) [] [3, 4] = errorDistance := by decide +kernel

example : (Aspect.populate Data.manner 1000 1001).distance 5 500 = some errorDistance :=
  (C42_other_aspect_partial (wellNamed_of (by decide +kernel)) 5 (b := 500) (by decide +kernel)
    (by decide) (by decide)).1

/-- The colours of feature.py:350: a range that goes round. -/
def colours : Val :=
  .list 0 "color" .cyclic (1/2) [.feat ⟨1, "red"⟩, .feat ⟨2, "orange"⟩, .feat ⟨3, "yellow"⟩,
    .feat ⟨4, "green"⟩, .feat ⟨5, "blue"⟩, .feat ⟨6, "purple"⟩]

example : WellNamed colours 7 8 := wellNamed_of (by decide +kernel)

example : (Aspect.populate colours 7 8).distance 1 5 = some 1 := by decide +kernel

def colourItems : List Val :=
  [.feat ⟨1, "red"⟩, .feat ⟨2, "orange"⟩, .feat ⟨3, "yellow"⟩, .feat ⟨4, "green"⟩,
    .feat ⟨5, "blue"⟩, .feat ⟨6, "purple"⟩]

example : (range (Aspect.populate colours 7 8) 0 colourItems (.feat ⟨5, "blue"⟩)
    (.feat ⟨2, "orange"⟩)).toOption = some [1, 2, 5, 6] := by decide +kernel

example : hasFeature (Aspect.populate Data.manner 1000 1001) [5] 2 = true ∧
    hasFeature (Aspect.populate Data.manner 1000 1001) [1] 2 = false := by decide +kernel

/-! ## Where C42 fails -/

/-- Two features with the same alias. -/
def twins : Val :=
  .list 0 "size" .linear 1 [.feat ⟨1, "small"⟩, .feat ⟨2, "middle"⟩, .feat ⟨3, "small"⟩,
    .feat ⟨4, "large"⟩]

/-- C42 fails if two features of an aspect have the same alias: the distances of the second one are
forgotten again and again, and the distance is not symmetric. -/
theorem C42_same_alias_asymmetric :
    (Aspect.populate twins 10 11).distance 1 3 = some 2 ∧
      (Aspect.populate twins 10 11).distance 3 1 = some 3 := by decide +kernel

/-- A feature that occurs twice in a linear list. -/
def again : Val :=
  .list 0 "size" .linear 1 [.feat ⟨1, "small"⟩, .feat ⟨2, "large"⟩, .feat ⟨1, "small"⟩]

/-- C42 fails if a feature occurs twice in a linear list: the distance becomes negative. -/
theorem C42_repeated_negative :
    (Aspect.populate again 10 11).distance 1 2 = some (-1) ∧
      (Aspect.populate again 10 11).distance 2 1 = some (-1) := by decide +kernel

/-- A feature with the alias of the list it is in. -/
def namesake : Val :=
  .list 0 "height" .linear 1 [.feat ⟨1, "low"⟩, .feat ⟨2, "height"⟩, .feat ⟨3, "high"⟩]

/-- C42 fails if a feature has the alias of a value list. -/
theorem C42_list_alias_asymmetric :
    (Aspect.populate namesake 10 11).distance 1 2 = some 1 ∧
      (Aspect.populate namesake 10 11).distance 2 1 = some 2 := by decide +kernel

end Nisaba.Props
