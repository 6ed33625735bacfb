import Verif.Lemmas.ProfileDist
/-!
# C78–C82: feature sets, profiles, similarity, multi-profiles, features of symbols

`Reach ed W` (Verif.Lemmas.ProfileWorld) says that the world `W` is made by calls of the interface;
with `ed = false` no set is edited by hand (`Set.add`, `remove`, `replace`, `update` on a set).
-/
namespace Nisaba.Props
open Nisaba.Feature FeatureAux

/-- `Names W x f`: the feature `f` is given by the argument `x`, directly or inside a set, a profile,
a multi-profile or an iterable. -/
inductive Names (W : World) : Arg → Nat → Prop
  | feat (f : Nat) : Names W (.feat f) f
  | set {r f : Nat} : f ∈ W.content r → Names W (.set r) f
  | profile {o r f : Nat} {p : Prof} {k : String} :
      W.objs[o]? = some p → (k, r) ∈ p.sets → f ∈ W.content r → Names W (.profile o) f
  | multi {j o f : Nat} {m : List (String × Nat)} {k : String} :
      W.mps[j]? = some m → (k, o) ∈ m → Names W (.profile o) f → Names W (.multi j) f
  | iter {xs : List Arg} {x : Arg} {f : Nat} : x ∈ xs → Names W x f → Names W (.iter xs) f

/-- The feature is given by one of the arguments. -/
def GivenBy (W : World) (args : List Arg) (f : Nat) : Prop := ∃ x ∈ args, Names W x f

namespace ProfileAux

theorem mem_profile {W : World} {o f : Nat} :
    f ∈ Arg.flat W (.profile o) ↔ Names W (.profile o) f := by
  simp only [Arg.flat, List.mem_flatMap]
  constructor
  · rintro ⟨r, hr, hf⟩
    unfold World.refs at hr
    cases hp : W.objs[o]? with
    | none => rw [hp] at hr; cases hr
    | some p =>
      rw [hp] at hr
      obtain ⟨⟨k, r'⟩, hq, rfl⟩ := List.mem_map.1 hr
      exact .profile hp hq hf
  · intro h
    cases h with
    | profile hp hq hf =>
      refine ⟨_, ?_, hf⟩
      simp only [World.refs, hp]
      exact List.mem_map.2 ⟨_, hq, rfl⟩

mutual
theorem mem_flat {W : World} : ∀ (x : Arg) {f : Nat}, f ∈ Arg.flat W x ↔ Names W x f
  | .feat g, f => by
    simp only [Arg.flat, List.mem_singleton]
    constructor
    · rintro rfl; exact .feat _
    · intro h; cases h; rfl
  | .set r, f => by
    simp only [Arg.flat]
    constructor
    · exact .set
    · intro h; cases h; assumption
  | .profile o, f => mem_profile
  | .multi j, f => by
    simp only [Arg.flat, List.mem_flatMap]
    constructor
    · rintro ⟨r, ⟨o, ho, hr⟩, hf⟩
      obtain ⟨m, hm, k, hq, hj⟩ := members_mem ho
      refine .multi hj hq (mem_profile.1 ?_)
      simp only [Arg.flat, List.mem_flatMap]
      exact ⟨r, hr, hf⟩
    · intro h
      cases h with
      | multi hj hq hp =>
        have := mem_profile.2 hp
        simp only [Arg.flat, List.mem_flatMap] at this
        obtain ⟨r, hr, hf⟩ := this
        refine ⟨r, ⟨_, ?_, hr⟩, hf⟩
        simp only [World.members, List.getD_eq_getElem?_getD, hj, Option.getD_some]
        exact List.mem_map.2 ⟨_, hq, rfl⟩
  | .iter xs, f => by
    simp only [Arg.flat]
    rw [mem_flatL xs]
    constructor
    · rintro ⟨x, hx, h⟩; exact .iter hx h
    · intro h
      cases h with
      | iter hx h => exact ⟨_, hx, h⟩
  | .other, f => by
    simp only [Arg.flat]
    constructor
    · intro h; cases h
    · intro h; cases h
theorem mem_flatL {W : World} : ∀ (xs : List Arg) {f : Nat},
    f ∈ Arg.flatL W xs ↔ ∃ x ∈ xs, Names W x f
  | [], f => by simp [Arg.flatL]
  | x :: xs, f => by
    simp only [Arg.flatL, List.mem_append]
    rw [mem_flat x, mem_flatL xs]
    simp only [List.mem_cons, exists_eq_or_imp]
end

theorem given {W : World} {args : List Arg} {f : Nat} : f ∈ Arg.flatL W args ↔ GivenBy W args f :=
  mem_flatL args

theorem content_new (W : World) (args : List Arg) (r : Nat) :
    (W.newSet args).1.content r =
      if r = W.sets.length then toSet (Arg.flatL W args) else W.content r := by
  simp only [World.newSet, World.content, List.getD_eq_getElem?_getD]
  split
  · next h => subst h; simp
  · next h =>
    rcases Nat.lt_or_gt_of_ne h with h | h
    · rw [List.getElem?_append_left h]
    · rw [List.getElem?_eq_none (by simp; omega), List.getElem?_eq_none (by omega)]

theorem valued {W : World} {args : List Arg} {a : PAspect} {x : Nat} :
    x ∈ ((toSet (Arg.flatL W args)).filter fun f => a.aspect.owned f) ↔
      GivenBy W args x ∧ a.aspect.owned x = true := by
  rw [List.mem_filter, mem_toSet, given]

theorem valued_empty {W : World} {args : List Arg} {a : PAspect} :
    ((toSet (Arg.flatL W args)).filter fun f => a.aspect.owned f).isEmpty = true ↔
      ¬ ∃ x, GivenBy W args x ∧ a.aspect.owned x = true := by
  rw [isEmpty_filter]
  simp only [mem_toSet, given]
  constructor
  · rintro h ⟨x, h1, h2⟩
    rw [h x h1] at h2; cases h2
  · intro h x hx
    cases ho : a.aspect.owned x with
    | false => rfl
    | true => exact absurd ⟨x, hx, ho⟩ h

end ProfileAux
open ProfileAux

/-! ## C78: sets -/

/-- C78: `add` adds exactly the features given (repeatedly or nested), `remove` removes exactly
those, `reset` empties; no other set, profile or multi-profile changes. -/
theorem C78_in_place (W : World) {r : Nat} (hr : r < W.sets.length) (args : List Arg) :
    (∀ x, x ∈ (W.setAdd r args).content r ↔ x ∈ W.content r ∨ GivenBy W args x) ∧
    (∀ x, x ∈ (W.setRemove r args).content r ↔ x ∈ W.content r ∧ ¬ GivenBy W args x) ∧
    (W.setReset r).content r = [] ∧
    (∀ r', r' ≠ r → (W.setAdd r args).content r' = W.content r' ∧
      (W.setRemove r args).content r' = W.content r' ∧ (W.setReset r).content r' = W.content r') ∧
    ((W.content r).Nodup → ((W.setAdd r args).content r).Nodup ∧
      ((W.setRemove r args).content r).Nodup) := by
  refine ⟨?_, ?_, ?_, ?_, ?_⟩
  · intro x
    rw [World.setAdd, content_write W hr, if_pos rfl, mem_foldl_insert, given]
  · intro x
    rw [World.setRemove, content_write W hr, if_pos rfl, List.mem_filter, ← given]
    simp
  · rw [World.setReset, content_write W hr, if_pos rfl]
  · intro r' h
    exact ⟨content_write_ne W h _, content_write_ne W h _, content_write_ne W h _⟩
  · intro h
    rw [World.setAdd, World.setRemove, content_write W hr, content_write W hr, if_pos rfl, if_pos rfl]
    exact ⟨nodup_foldl_insert _ _ h, h.filter _⟩

/-- C78: `union`, `intersection`, `difference` and `copy` make a new set with the right members and
change none of the sets that were there. -/
theorem C78_new (W : World) {r : Nat} (hr : r < W.sets.length) (args : List Arg) :
    (∀ x, x ∈ (W.setUnion r args).1.content (W.setUnion r args).2 ↔
      x ∈ W.content r ∨ GivenBy W args x) ∧
    (∀ x, x ∈ (W.setIntersection r args).1.content (W.setIntersection r args).2 ↔
      x ∈ W.content r ∧ GivenBy W args x) ∧
    (∀ x, x ∈ (W.setDifference r args).1.content (W.setDifference r args).2 ↔
      x ∈ W.content r ∧ ¬ GivenBy W args x) ∧
    (∀ x, x ∈ (W.setCopy r).1.content (W.setCopy r).2 ↔ x ∈ W.content r) ∧
    (∀ x, x ∈ (W.newSet args).1.content (W.newSet args).2 ↔ GivenBy W args x) ∧
    ∀ V ∈ [W.setUnion r args, W.setIntersection r args, W.setDifference r args, W.setCopy r,
      W.newSet args],
      V.2 = W.sets.length ∧ (∀ r', r' < W.sets.length → V.1.content r' = W.content r') ∧
      V.1.objs = W.objs ∧ V.1.mps = W.mps ∧ (V.1.content V.2).Nodup := by
  have key : ∀ args, (W.newSet args).2 = W.sets.length ∧
      (∀ r', r' < W.sets.length → (W.newSet args).1.content r' = W.content r') ∧
      (W.newSet args).1.objs = W.objs ∧ (W.newSet args).1.mps = W.mps ∧
      ((W.newSet args).1.content (W.newSet args).2).Nodup := by
    intro args
    refine ⟨rfl, fun r' h => ?_, rfl, rfl, ?_⟩
    · rw [content_new, if_neg (by omega)]
    · rw [content_new, if_pos (by rfl)]; exact nodup_toSet _
  have mem : ∀ args x, x ∈ (W.newSet args).1.content (W.newSet args).2 ↔ x ∈ Arg.flatL W args := by
    intro args x
    rw [content_new, if_pos (by rfl), mem_toSet]
  refine ⟨?_, ?_, ?_, ?_, ?_, ?_⟩
  · intro x
    simp only [World.setUnion, mem, flatL_feats, List.mem_append, given]
  · intro x
    simp only [World.setIntersection, mem, flatL_feats, List.mem_filter, List.contains_iff_mem, given]
  · intro x
    simp only [World.setDifference, mem, flatL_feats, List.mem_filter]
    rw [← given]; simp
  · intro x
    simp [World.setCopy, mem, Arg.flatL, Arg.flat]
  · intro x
    rw [mem, given]
  · intro V hV
    simp only [List.mem_cons, List.not_mem_nil, or_false] at hV
    rcases hV with rfl | rfl | rfl | rfl | rfl <;> exact key _

/-- C78: `replace` and `update`, if the new features do not come out of the set itself. -/
theorem C78_replace_partial (W : World) {r : Nat} (hr : r < W.sets.length) (old new : List Arg)
    (hnew : r ∉ Arg.readsL W new) :
    (∀ x, x ∈ (W.setReplace r old new).content r ↔
      (x ∈ W.content r ∧ ¬ GivenBy W old x) ∨ GivenBy W new x) ∧
    (∀ x, x ∈ (W.setUpdate r new).content r ↔ GivenBy W new x) ∧
    (∀ r', r' ≠ r → (W.setReplace r old new).content r' = W.content r' ∧
      (W.setUpdate r new).content r' = W.content r') := by
  have g : ∀ s x, GivenBy (W.write r s) new x ↔ GivenBy W new x := by
    intro s x
    rw [← given, ← given, flatL_agree new (agree_write W hnew s)]
  have hl : ∀ s, r < (W.write r s).sets.length := fun s => by rw [write_length]; exact hr
  refine ⟨?_, ?_, ?_⟩
  · intro x
    rw [World.setReplace, (C78_in_place (W.setRemove r old) (hl _) new).1,
      (C78_in_place W hr old).2.1]
    simp only [World.setRemove, g]
  · intro x
    rw [World.setUpdate, (C78_in_place (W.setReset r) (hl _) new).1, (C78_in_place W hr new).2.2.1]
    simp [World.setReset, g]
  · intro r' h
    constructor
    · rw [World.setReplace, World.setAdd, content_write_ne _ h, World.setRemove,
        content_write_ne _ h]
    · rw [World.setUpdate, World.setAdd, content_write_ne _ h, World.setReset, content_write_ne _ h]

/-- C78 is violated by `s.update(s)`, and by `s.update(p)` for a profile `p` that holds `s`: the set
is emptied before its members are taken. -/
theorem C78_update_self_violated (W : World) {r : Nat} (hr : r < W.sets.length) :
    (W.setUpdate r [.set r]).content r = [] ∧
    ∀ o, (∀ r' ∈ W.refs o, r' = r) → (W.setUpdate r [.profile o]).content r = [] := by
  have hl : r < (W.write r []).sets.length := by rw [write_length]; exact hr
  have h0 : (W.write r []).content r = [] := by rw [content_write W hr, if_pos rfl]
  constructor
  · rw [World.setUpdate, World.setReset, World.setAdd, content_write _ hl, if_pos rfl, h0]
    simp [Arg.flatL, Arg.flat, h0]
  · intro o ho
    rw [World.setUpdate, World.setReset, World.setAdd, content_write _ hl, if_pos rfl, h0]
    have : Arg.flatL (W.write r []) [.profile o] = [] := by
      simp only [Arg.flatL, Arg.flat, List.append_nil, List.flatMap_eq_nil_iff]
      intro r' hr'
      have : r' = r := ho r' hr'
      subst this
      exact h0
    rw [this]
    rfl

/-! ## C79: profiles -/

/-- C79: the values of a new profile: for every aspect of the inventory the features given that
belong to the aspect, and if there are none the default (`any`, or `n_a` if that was asked for).
The profiles that were there do not change. -/
theorem C79_constructor {ed : Bool} {W : World} (hW : Reach ed W) {i : Nat} {p : Prof}
    (hi : W.objs[i]? = some p) (args : List Arg) (naDefault : Bool) :
    (W.newProfile p.inv args naDefault).2 = W.objs.length ∧
    (∀ a ∈ p.inv.aspects, ∀ x, x ∈ (W.newProfile p.inv args naDefault).1.get W.objs.length a ↔
      (GivenBy W args x ∧ a.aspect.owned x = true) ∨
      ((¬ ∃ f, GivenBy W args f ∧ a.aspect.owned f = true) ∧
        x = if naDefault then a.naId else a.anyId)) ∧
    (∀ o, o < W.objs.length → ∀ a, (W.newProfile p.inv args naDefault).1.get o a = W.get o a) ∧
    (∀ q ∈ (W.newProfile p.inv args naDefault).1.objs.drop W.objs.length, q.inv = p.inv) := by
  have hg := (hW.ok.good hi).good
  refine ⟨rfl, ?_, fun o ho a => get_new_old hW.ok hg args naDefault ho a, ?_⟩
  · intro a ha x
    rw [get_new W hg args naDefault ha, mem_valOf]
    simp only [mem_toSet, given]
    refine or_congr Iff.rfl (and_congr_left fun _ => ?_)
    constructor
    · rintro h ⟨f, h1, h2⟩
      rw [h f h1] at h2; cases h2
    · intro h f hf
      cases ho : a.aspect.owned f with
      | false => rfl
      | true => exact absurd ⟨f, hf, ho⟩ h
  · rw [objs_new W hg]
    intro q hq
    simp at hq
    rw [hq]

/-- C79: `update` gives every aspect that one of the features belongs to exactly those features, and
changes no other aspect and no other profile. -/
theorem C79_update {ed : Bool} {W : World} (hW : Reach ed W) {o : Nat} {p : Prof}
    (ho : W.objs[o]? = some p) (args : List Arg) :
    (∀ a ∈ p.inv.aspects, (∃ f, GivenBy W args f ∧ a.aspect.owned f = true) →
      ∀ x, x ∈ (W.updateProfile o args).get o a ↔ GivenBy W args x ∧ a.aspect.owned x = true) ∧
    (∀ a ∈ p.inv.aspects, (¬ ∃ f, GivenBy W args f ∧ a.aspect.owned f = true) →
      (W.updateProfile o args).get o a = W.get o a) ∧
    (∀ o', o' ≠ o → ∀ a, (W.updateProfile o args).get o' a = W.get o' a) ∧
    (W.updateProfile o args).objs = W.objs ∧ (W.updateProfile o args).mps = W.mps := by
  refine ⟨?_, ?_, fun o' h a => get_update_other hW.ok h args a, (shape_update W o args).objs,
    (shape_update W o args).mps⟩
  · intro a ha hf x
    rw [get_update hW.ok ho args ha, if_neg, valued]
    rw [valued_empty]
    exact fun h => h hf
  · intro a ha hf
    rw [get_update hW.ok ho args ha, if_pos]
    rw [valued_empty]
    exact hf

/-- C79: a copy has the same inventory and the same values, if no set of a profile was edited by
hand; editing the copy or the original later does not change the other (`C79_update`). -/
theorem C79_copy_partial {W : World} (hW : Reach false W) {o : Nat} {p : Prof}
    (ho : W.objs[o]? = some p) :
    (W.copyProfile o).2 = W.objs.length ∧
    (∃ q, (W.copyProfile o).1.objs[W.objs.length]? = some q ∧ q.inv = p.inv) ∧
    (∀ a ∈ p.inv.aspects, ∀ x, x ∈ (W.copyProfile o).1.get W.objs.length a ↔ x ∈ W.get o a) ∧
    (∀ k, k < W.objs.length → ∀ a, (W.copyProfile o).1.get k a = W.get k a) := by
  obtain ⟨h1, h2, _, h4⟩ := copy_frame hW.ok ho
  refine ⟨h1, ⟨⟨p.inv, tableOf p.inv W.sets.length⟩, by rw [h2]; simp, rfl⟩, ?_, h4⟩
  intro a ha x
  exact get_copy hW.ok ho (hW.clean o p ho) ha x

/-- C79: two calls of `update` with features of different aspects can be made in either order. -/
theorem C79_update_comm {ed : Bool} {W : World} (hW : Reach ed W) {o : Nat} {p : Prof}
    (ho : W.objs[o]? = some p) (fs gs : List Nat)
    (hd : ∀ a ∈ p.inv.aspects, (∀ f ∈ fs, a.aspect.owned f = false) ∨
      (∀ g ∈ gs, a.aspect.owned g = false)) {a : PAspect} (ha : a ∈ p.inv.aspects) (x : Nat) :
    x ∈ ((W.updateProfile o (fs.map .feat)).updateProfile o (gs.map .feat)).get o a ↔
    x ∈ ((W.updateProfile o (gs.map .feat)).updateProfile o (fs.map .feat)).get o a := by
  have s1 := shape_update W o (fs.map .feat)
  have s2 := shape_update W o (gs.map .feat)
  rw [get_update (s1.ok hW.ok) (by rw [s1.objs]; exact ho) _ ha,
    get_update (s2.ok hW.ok) (by rw [s2.objs]; exact ho) _ ha, get_update hW.ok ho _ ha,
    get_update hW.ok ho _ ha]
  simp only [flatL_feats]
  have hemp : ∀ l : List Nat, (∀ f ∈ l, a.aspect.owned f = false) →
      ((toSet l).filter fun f => a.aspect.owned f).isEmpty = true := by
    intro l h
    rw [isEmpty_filter]
    intro x hx
    exact h x (mem_toSet.1 hx)
  rcases hd a ha with h | h
  · simp only [hemp _ h, if_true]
  · simp only [hemp _ h, if_true]

/-! ## C80: similarity -/

/-- C80: similarity is symmetric, for any choice of aspects, also after sets were edited. -/
theorem C80_symmetric {ed : Bool} {W : World} (hW : Reach ed W) {o1 o2 : Nat} {p1 p2 : Prof}
    (h1 : W.objs[o1]? = some p1) (h2 : W.objs[o2]? = some p2) (hpop : InvPop p1.inv)
    (aspects : Aspects) : W.similarity o1 o2 aspects = W.similarity o2 o1 aspects := by
  unfold World.similarity
  rw [h1, h2]
  simp only
  by_cases e : p1.inv.id = p2.inv.id
  · have he := hW.ok.inv p1 (List.mem_of_getElem? h1) p2 (List.mem_of_getElem? h2) e
    rw [← he]
    simp only [ne_eq, not_true_eq_false, if_false]
    cases aspects <;>
      simp only [totals_symm (hW.ok.good h1).good hpop W o1 o2]
  · rw [if_pos (Ne.symm e), if_pos e]

/-- The aspects that are compared. -/
def compared (inv : FInv) : Aspects → List PAspect
  | .unspecified => inv.aspects
  | .one _ => []
  | .many as => as

/-- C80: profiles of one inventory that were not edited by hand, compared on aspects of the
inventory: the result is between zero and one; one exactly if every aspect compared is at distance
zero, in particular for a profile and itself; division by zero exactly if the maximal distances of
the aspects add up to zero. -/
theorem C80_bounds_partial {W : World} (hW : Reach false W) {o1 o2 : Nat} {p1 p2 : Prof}
    (h1 : W.objs[o1]? = some p1) (h2 : W.objs[o2]? = some p2) (e : p2.inv = p1.inv)
    (hpop : InvPop p1.inv) {aspects : Aspects} (hone : ∀ a, aspects ≠ .one a)
    (has : ∀ a ∈ compared p1.inv aspects, a ∈ p1.inv.aspects) :
    ((W.similarity o1 o2 aspects = .error .zeroDivision ∧
        ((compared p1.inv aspects).map fun a => a.aspect.maxDist).foldr (· + ·) 0 = 0) ∨
      ∃ s, W.similarity o1 o2 aspects = .ok s ∧ 0 ≤ s ∧ s ≤ 1 ∧
        ((compared p1.inv aspects).map fun a => a.aspect.maxDist).foldr (· + ·) 0 ≠ 0 ∧
        (s = 1 ↔ ∀ a ∈ compared p1.inv aspects,
          setDistance p1.inv.dist (W.get o1 a) (W.get o2 a) = 0) ∧
        (o1 = o2 → s = 1)) := by
  have hg := (hW.ok.good h1).good
  have hs : W.similarity o1 o2 aspects =
      similarityOf (W.totals p1.inv o1 o2 (compared p1.inv aspects)) := by
    unfold World.similarity
    rw [h1, h2]
    simp only [e, ne_eq, not_true_eq_false, if_false]
    cases aspects with
    | unspecified => rfl
    | one a => exact absurd rfl (hone a)
    | many as => rfl
  rw [hs, ← totals_snd p1.inv W o1 o2]
  have hb := totals_bounds hg hpop W (hW.clean o1 p1 h1) (hW.clean o2 p2 h2) rfl e _ has
  have hz := totals_zero hg hpop W o1 o2 (compared p1.inv aspects)
  unfold similarityOf
  by_cases h0 : (W.totals p1.inv o1 o2 (compared p1.inv aspects)).2 = 0
  · rw [if_pos h0]; exact .inl ⟨rfl, h0⟩
  · rw [if_neg h0]
    right
    obtain ⟨k1, k2, k3⟩ := rat_div_bounds hb.1 hb.2 h0
    refine ⟨_, rfl, k1, k2, h0, k3.trans hz.2, ?_⟩
    rintro rfl
    exact k3.2 (totals_self hg hpop W (hW.clean o1 p1 h1) rfl _ has)

/-- C80: profiles of different inventories have similarity zero. -/
theorem C80_other_inventory {W : World} {o1 o2 : Nat} {p1 p2 : Prof} (h1 : W.objs[o1]? = some p1)
    (h2 : W.objs[o2]? = some p2) (e : p2.inv.id ≠ p1.inv.id) (aspects : Aspects) :
    W.similarity o1 o2 aspects = .ok 0 := by
  simp only [World.similarity, h1, h2, if_pos e]

/-- C80 is violated for a single aspect, which the type of the argument allows: an error, for every
pair of profiles of one inventory. -/
theorem C80_single_aspect_violated {W : World} {o1 o2 : Nat} {p1 p2 : Prof}
    (h1 : W.objs[o1]? = some p1) (h2 : W.objs[o2]? = some p2) (e : p2.inv.id = p1.inv.id)
    (a : PAspect) : ¬ ∃ s, W.similarity o1 o2 (.one a) = .ok s := by
  rintro ⟨s, hs⟩
  simp only [World.similarity, h1, h2, e, ne_eq, not_true_eq_false, if_false] at hs
  split at hs <;> cases hs

/-! ## C81: multi-profiles -/

/-- C81: after `new_profile` the multi-profile answers with the values of the given profile for its
inventory, and the objects of the world that it does not hold (so all other multi-profiles) are
unchanged.  Missing: `hal`, two inventories with the same alias (see `C81_alias_violated`). -/
theorem C81_new_partial {W : World} (hW : Reach false W) {j : Nat} (hj : j < W.mps.length) {o : Nat}
    {p : Prof} (ho : W.objs[o]? = some p)
    (hal : W.hasProfile j p.inv = true ∨ (p.inv.alias ∉ Inv.ownFields ∧
      ∀ q ∈ W.mps.getD j [], q.1 ≠ p.inv.alias)) :
    (∃ k, (W.mpNew j o).1.mpGet j p.inv = some k ∧
      (∃ q, (W.mpNew j o).1.objs[k]? = some q ∧ q.inv = p.inv) ∧
      ∀ a ∈ p.inv.aspects, ∀ x, x ∈ (W.mpNew j o).1.get k a ↔ x ∈ W.get o a) ∧
    (∀ k, k < W.objs.length → k ∉ W.members j → ∀ a, (W.mpNew j o).1.get k a = W.get k a) ∧
    (∀ j', j' ≠ j → (W.mpNew j o).1.mps.getD j' [] = W.mps.getD j' []) := by
  obtain ⟨k, _, h2, h3, _, h5⟩ := mpNew_value hW.ok hj ho (hW.clean o p ho) hal
  exact ⟨⟨k, h2, h3, h5⟩, fun k hk hm a => mpNew_other hW.ok j ho hk hm a,
    fun j' h => mpNew_mps hW.ok j ho h⟩

/-- C81: without a profile for the inventory the answer is the profile `not_applicable` of the
inventory, which no multi-profile holds. -/
theorem C81_get {ed : Bool} {W : World} (hW : Reach ed W) {o : Nat} {p : Prof}
    (ho : W.objs[o]? = some p) (j : Nat) :
    (∃ k ∈ W.members j, (∃ q, W.objs[k]? = some q ∧ q.inv = p.inv) ∧ W.mpGet j p.inv = some k) ∨
    ((∀ k ∈ W.members j, ∀ q, W.objs[k]? = some q → q.inv ≠ p.inv) ∧
      W.mpGet j p.inv = some p.inv.na ∧
      (∃ q, W.objs[p.inv.na]? = some q ∧ q.inv = p.inv) ∧ ∀ j', p.inv.na ∉ W.members j') := by
  have hpm := List.mem_of_getElem? ho
  by_cases h : W.hasProfile j p.inv = true
  · left
    obtain ⟨k, hk, q, hq, e⟩ := (hasProfile_iff hW.ok hpm).1 h
    obtain ⟨q', hq', _, hl⟩ := hW.ok.member hk
    rw [hq] at hq'; cases hq'
    refine ⟨k, hk, ⟨q, hq, e⟩, ?_⟩
    simp only [World.mpGet, h, if_true]
    rw [← e]
    exact hl
  · right
    obtain ⟨q, hq, e⟩ := hW.ok.na p hpm
    refine ⟨?_, ?_, ⟨q, hq, e⟩, ?_⟩
    · intro k hk q hq e
      exact h ((hasProfile_iff hW.ok hpm).2 ⟨k, hk, q, hq, e⟩)
    · simp [World.mpGet, h]
    · intro j' hm
      obtain ⟨q', hq', hne, _⟩ := hW.ok.member hm
      rw [hq] at hq'; cases hq'
      rw [e] at hne
      exact hne rfl

/-- C81: a copy of a multi-profile holds, in the same order, new profiles of the same inventories
with the same values; nothing that was there changes. -/
theorem C81_copy_partial {W : World} (hW : Reach false W) (j : Nat) :
    (W.mpCopy j).2 = W.mps.length ∧
    (∀ j', j' < W.mps.length → (W.mpCopy j).1.mps.getD j' [] = W.mps.getD j' []) ∧
    (∀ k, k < W.objs.length → ∀ a, (W.mpCopy j).1.get k a = W.get k a) ∧
    (∀ i ∈ (W.mpCopy j).1.members W.mps.length, W.objs.length ≤ i) ∧
    Zips (fun o i => ∃ p q, W.objs[o]? = some p ∧ (W.mpCopy j).1.objs[i]? = some q ∧
      q.inv = p.inv ∧ ∀ a ∈ p.inv.aspects, ∀ x, x ∈ (W.mpCopy j).1.get i a ↔ x ∈ W.get o a)
      (W.members j) ((W.mpCopy j).1.members W.mps.length) := by
  have hok := ok_newMulti hW.ok
  have hempty : W.newMulti.1.mps.getD W.mps.length [] = [] := by
    simp [World.newMulti, List.getD_eq_getElem?_getD]
  have hkeys : (W.members j).Pairwise (fun o o' => ∀ p p', W.objs[o]? = some p →
      W.objs[o']? = some p' → p.inv.alias ≠ p'.inv.alias) := by
    unfold World.members
    rw [List.getD_eq_getElem?_getD]
    cases hm : W.mps[j]? with
    | none => simp
    | some m =>
      obtain ⟨h1, _, h3⟩ := hW.ok.mp m (List.mem_of_getElem? hm)
      simp only [Option.getD_some]
      rw [List.pairwise_map]
      rw [List.Nodup, List.pairwise_map] at h1
      refine List.Pairwise.imp_of_mem ?_ h1
      intro q q' hq hq' hne p p' hp hp'
      obtain ⟨_, p1, e1, e2, _⟩ := h3 q hq
      obtain ⟨_, p2, e3, e4, _⟩ := h3 q' hq'
      rw [hp] at e1; rw [hp'] at e3
      cases e1; cases e3
      rw [e2, e4]
      exact hne
  have := copyMembers_value W.mps.length (W.members j) W.newMulti.1 hok
    (show AllClean W.newMulti.1 from hW.clean) (by simp [World.newMulti]) (by
      intro o ho
      obtain ⟨m, hm, key, hq, hj⟩ := members_mem ho
      obtain ⟨_, _, h3⟩ := hW.ok.mp m hm
      obtain ⟨h4, p, hp, e, _⟩ := h3 _ hq
      refine ⟨p, hp, by rw [e]; exact h4, ?_⟩
      rw [hempty]
      intro q hq; cases hq) hkeys
  obtain ⟨_, i2, i3, _, new, i5, i6, i7⟩ := this
  have hmem : W.newMulti.1.members W.mps.length = [] := by
    simp only [World.members, hempty, List.map_nil]
  have hcopy : W.mpCopy j = (copyMembers W.mps.length (W.members j) W.newMulti.1, W.mps.length) := rfl
  rw [hmem, List.nil_append] at i5
  rw [hcopy]
  simp only
  rw [i5]
  refine ⟨trivial, ?_, i2, i6, i7⟩
  intro j' hj'
  rw [i3 j' (by omega)]
  simp [World.newMulti, List.getD_eq_getElem?_getD, List.getElem?_append_left hj']

/-- C81: the profiles of two multi-profiles are different objects without common sets, so that
nothing done to one shows in the other. -/
theorem C81_isolated {ed : Bool} {W : World} (hW : Reach ed W) {j j' : Nat} (hne : j ≠ j')
    {k k' : Nat} (hk : k ∈ W.members j) (hk' : k' ∈ W.members j') : k ≠ k' ∧ ∀ r ∈ W.refs k, r ∉ W.refs k' := by
  have : k ≠ k' := by
    rintro rfl
    exact hW.ok.held j j' hne k hk hk'
  exact ⟨this, fun r hr => refs_apart hW.ok this hr⟩

/-! ## C82: features of symbols -/

/-- C82: `add_features` adds, to every aspect of every profile of the symbol, the features given
that belong to the aspect, and removes `any` there; everything else is unchanged. -/
theorem C82_add {ed : Bool} {W : World} (hW : Reach ed W) (j : Nat) (args : List Arg) :
    (∀ k ∈ W.members j, ∀ p, W.objs[k]? = some p → ∀ a ∈ p.inv.aspects,
      ((∃ f, GivenBy W args f ∧ a.aspect.owned f = true) →
        ∀ x, x ∈ (W.addFeatures j args).get k a ↔
          (x ∈ W.get k a ∧ x ≠ a.anyId) ∨ (GivenBy W args x ∧ a.aspect.owned x = true)) ∧
      ((¬ ∃ f, GivenBy W args f ∧ a.aspect.owned f = true) →
        (W.addFeatures j args).get k a = W.get k a)) ∧
    (∀ k, k ∉ W.members j → ∀ a, (W.addFeatures j args).get k a = W.get k a) ∧
    (W.addFeatures j args).objs = W.objs ∧ (W.addFeatures j args).mps = W.mps := by
  have hS := shape_addFeatures hW.ok j args
  refine ⟨?_, ?_, hS.objs, hS.mps⟩
  · intro k hk p hp a ha
    have hv := get_addToProfiles (toSet (Arg.flatL W args)) ha _ W hW.ok (members_nodup hW.ok j) hk hp
    unfold World.addFeatures
    rw [hv]
    constructor
    · intro hf x
      rw [if_neg, mem_addVals, valued]
      rw [valued_empty]
      exact fun h => h hf
    · intro hf
      rw [if_pos]
      rw [valued_empty]
      exact hf
  · intro k hk a
    exact get_frame (W' := W.addFeatures j args) (by rw [hS.objs])
      (addToProfiles_other _ _ W hW.ok hk) a

/-- C82: `Symbol.has_feature` says whether the value is one of the features in the profiles of the
symbol; values are not looked up in the lists above the features.  Missing: that. -/
theorem C82_has_partial {ed : Bool} {W : World} (hW : Reach ed W) (j value : Nat) :
    W.symbolHas j value = true ↔ ∃ k ∈ W.members j, ∃ p, W.objs[k]? = some p ∧
      ∃ a ∈ p.inv.aspects, value ∈ W.get k a := by
  unfold World.symbolHas
  rw [List.contains_iff_mem]
  simp only [Arg.flat, List.mem_flatMap]
  constructor
  · rintro ⟨r, ⟨k, hk, hr⟩, hv⟩
    obtain ⟨p, hp, _⟩ := hW.ok.member hk
    refine ⟨k, hk, p, hp, ?_⟩
    rw [← mem_flat_profile hW.ok hp]
    simp only [Arg.flat, List.mem_flatMap]
    exact ⟨r, hr, hv⟩
  · rintro ⟨k, hk, p, hp, h⟩
    rw [← mem_flat_profile hW.ok hp] at h
    simp only [Arg.flat, List.mem_flatMap] at h
    obtain ⟨r, hr, hv⟩ := h
    exact ⟨r, ⟨k, hk, hr⟩, hv⟩

/-- C82: `PhonologicalSymbol.has_feature` also finds the value in the lists above the features of the
symbol and of its language. -/
theorem C82_phon {W : World} (parents : Nat → List Nat) (j : Nat) (lang : Arg) (value : Nat) :
    W.phonHas parents j lang value = true ↔ ∃ f, GivenBy W [.multi j, lang] f ∧
      (f = value ∨ value ∈ parents f) := by
  unfold World.phonHas
  simp only [Bool.or_eq_true, List.contains_iff_mem, List.any_eq_true, mem_toSet, given]
  constructor
  · rintro (h | ⟨f, h1, h2⟩)
    · exact ⟨value, h, .inl rfl⟩
    · exact ⟨f, h1, .inr h2⟩
  · rintro ⟨f, h1, rfl | h2⟩
    · exact .inl h1
    · exact .inr ⟨f, h1, h2⟩

/-- C82: after `add_features` the symbol has every feature given that belongs to an aspect of one of
its profiles. -/
theorem C82_added {ed : Bool} {W : World} (hW : Reach ed W) (j : Nat) (args : List Arg) {f k : Nat}
    {p : Prof} {a : PAspect} (hf : GivenBy W args f) (hk : k ∈ W.members j) (hp : W.objs[k]? = some p)
    (ha : a ∈ p.inv.aspects) (ho : a.aspect.owned f = true) :
    (W.addFeatures j args).symbolHas j f = true := by
  obtain ⟨h1, _, h3, h4⟩ := C82_add hW j args
  rw [C82_has_partial (.addFeatures j args hW)]
  refine ⟨k, by simpa [World.members, h4] using hk, p, by rw [h3]; exact hp, a, ha, ?_⟩
  exact ((h1 k hk p hp a ha).1 ⟨f, hf, ho⟩ f).2 (.inr ⟨hf, ho⟩)

/-! ## Examples and violations

An inventory with two aspects: how warm a room is, and its light. -/

def warmth : Val :=
  .list 1 "warmth" .linear 1 [.feat ⟨2, "hot"⟩, .feat ⟨3, "warm"⟩, .feat ⟨4, "cold"⟩]
def light : Val := .list 11 "light" .equidistant 2 [.feat ⟨12, "on"⟩, .feat ⟨13, "off"⟩]

def aWarmth : PAspect := ⟨"warmth", Aspect.populate warmth 5 6, 5, 6⟩
def aLight : PAspect := ⟨"light", Aspect.populate light 15 16, 15, 16⟩

namespace ProfileAux

theorem ok_of {e : Except CompareErr Rat} {x : Rat} (h : e.toOption = some x) : e = .ok x := by
  cases e with
  | error _ => cases h
  | ok y => cases h; rfl

def room : FInv := ⟨1, "room", [aWarmth, aLight], 0⟩

theorem roomPop : InvPop room := by
  intro a ha
  simp only [room, List.mem_cons, List.not_mem_nil, or_false] at ha
  rcases ha with rfl | rfl
  · exact ⟨warmth, wellNamed_of (by decide +kernel), steps_of (by decide +kernel), rfl⟩
  · exact ⟨light, wellNamed_of (by decide +kernel), steps_of (by decide +kernel), rfl⟩

theorem roomGood : InvGood room := by
  refine invGood_of roomPop (by decide +kernel) (by decide +kernel) ?_
  intro a ha b hb f h1 h2
  have w : WellNamed warmth 5 6 := wellNamed_of (by decide +kernel)
  have l : WellNamed light 15 16 := wellNamed_of (by decide +kernel)
  have no : ∀ f, ¬ (aWarmth.aspect.owned f = true ∧ aLight.aspect.owned f = true) := by
    rintro f ⟨h1, h2⟩
    have h1 := (owned_iff w f).1 h1
    have h2 := (owned_iff l f).1 h2
    have e1 : leafIds warmth = [2, 3, 4] := by decide +kernel
    have e2 : leafIds light = [12, 13] := by decide +kernel
    rw [e1] at h1
    rw [e2] at h2
    simp only [List.mem_cons, List.not_mem_nil, or_false] at h1 h2
    omega
  simp only [room, List.mem_cons, List.not_mem_nil, or_false] at ha hb
  rcases ha with rfl | rfl <;> rcases hb with rfl | rfl
  · rfl
  · exact absurd ⟨h1, h2⟩ (no f)
  · exact absurd ⟨h2, h1⟩ (no f)
  · rfl

end ProfileAux

/-- The inventory; a profile (object 1) of a room that is hot or warm; one (object 2) of a cold room
with the light on; two symbols, the first of which has the first profile. -/
def w1 : World := (World.newInventory ⟨[], [], []⟩ 1 "room" [aWarmth, aLight]).1
def w2 : World := (w1.newProfile room [.feat 2, .iter [.feat 3, .other]]).1
def w3 : World := (w2.newProfile room [.feat 4, .feat 12]).1
def w4 : World := w3.newMulti.1.newMulti.1
def w5 : World := (w4.mpNew 0 1).1

theorem reach1 (ed : Bool) : Reach ed w1 :=
  .newInventory 1 "room" _ .start (by intro p hp; cases hp) roomGood

theorem reach2 (ed : Bool) : Reach ed w2 := .newProfile 0 (w1.objs[0]'(by decide +kernel)) _ _ (reach1 ed) rfl

theorem reach3 (ed : Bool) : Reach ed w3 := .newProfile 0 (w2.objs[0]'(by decide +kernel)) _ _ (reach2 ed) rfl

theorem reach5 (ed : Bool) : Reach ed w5 :=
  .mpNew 0 1 (.newMulti (.newMulti (reach3 ed))) (by decide +kernel)

example : w5.get 1 aWarmth = [2, 3] ∧ w5.get 1 aLight = [15] ∧ w5.get 2 aWarmth = [4] ∧
    w5.get 2 aLight = [12] ∧ w5.get 0 aLight = [16] ∧ w5.get 3 aWarmth = [2, 3] ∧
    w5.members 0 = [3] ∧ w5.members 1 = [] := by decide +kernel

/-- Sets: `C78_in_place`, `C78_new`, `C78_replace_partial` apply to the set of the first profile. -/
example : (w3.setAdd 2 [.set 4, .profile 2]).content 2 = [2, 3, 4, 12] ∧
    (w3.setRemove 2 [.iter [.feat 3]]).content 2 = [2] ∧
    (w3.setReplace 2 [.feat 2] [.feat 4]).content 2 = [3, 4] ∧
    (w3.setUpdate 2 [.set 4]).content 2 = [4] ∧ (w3.setUpdate 2 [.set 2]).content 2 = [] ∧
    (w3.setUnion 2 [.feat 4]).1.content 6 = [2, 3, 4] ∧ w3.sets.length = 6 := by decide +kernel

example : (w3.updateProfile 1 [.feat 13]).get 1 aLight = [13] ∧
    (w3.updateProfile 1 [.feat 13]).get 1 aWarmth = [2, 3] := by decide +kernel

/-- Similarity: warm is one step from cold, the light of the first room can be anything. -/
example : w3.similarity 1 2 = .ok (3/4) ∧ w3.similarity 2 2 = .ok 1 ∧
    w3.similarity 1 2 (.many [aLight]) = .ok 1 := by
  refine ⟨ok_of ?_, ok_of ?_, ok_of ?_⟩ <;> decide +kernel

example : ∃ s, w3.similarity 1 2 = .ok s ∧ 0 ≤ s ∧ s ≤ 1 := by
  rcases C80_bounds_partial (reach3 false) (o1 := 1) (o2 := 2)
    (p1 := w3.objs[1]'(by decide +kernel)) (p2 := w3.objs[2]'(by decide +kernel)) rfl rfl rfl roomPop
    (aspects := .unspecified) (by intro a h; cases h) (fun a h => h) with ⟨_, h⟩ | ⟨s, h1, h2, h3, _⟩
  · exact absurd h (by decide +kernel)
  · exact ⟨s, h1, h2, h3⟩

/-- C79 is violated by a set that was edited: the copy of a profile with an emptied aspect has `any`
there. -/
theorem C79_copy_violated : ∃ W, Reach true W ∧ ∃ (o : Nat) (p : Prof) (a : PAspect),
    W.objs[o]? = some p ∧ a ∈ p.inv.aspects ∧ W.get o a = [] ∧
    (W.copyProfile o).1.get W.objs.length a = [a.anyId] := by
  refine ⟨w2.setRemove 2 [.feat 2, .feat 3], .setRemove 2 _ rfl (reach2 true), 1,
    w2.objs[1]'(by decide +kernel), aWarmth, rfl, ?_, ?_, ?_⟩
  · exact List.mem_cons_self
  · decide +kernel
  · decide +kernel

/-- C80 is violated by a set that was edited: the similarity with an emptied aspect is far below
zero, also of the profile with itself. -/
theorem C80_empty_violated : ∃ W, Reach true W ∧ ∃ o, W.similarity o o = .ok (1 - 1000000 / 4) := by
  refine ⟨w2.setRemove 2 [.feat 2, .feat 3], .setRemove 2 _ rfl (reach2 true), 1, ok_of ?_⟩
  decide +kernel

/-- C79: an aspect of another inventory with the same alias is not told apart by `get`. -/
theorem C79_foreign_violated : ∃ W, Reach false W ∧ ∃ (o : Nat) (p : Prof) (a : PAspect),
    W.objs[o]? = some p ∧ a.aspect.owned 2 = false ∧ a.alias = "warmth" ∧ a.naId = 26 ∧
    W.get o a = [2, 3] := by
  refine ⟨w2, reach2 false, 1, w2.objs[1]'(by decide +kernel),
    ⟨"warmth", Aspect.populate (.list 21 "warmth" .linear 1 [.feat ⟨22, "hot"⟩]) 25 26, 25, 26⟩,
    rfl, ?_, rfl, rfl, ?_⟩ <;> decide +kernel

/-- C81 is violated for the result of `new_profile` when the multi-profile has a profile of the
inventory: the result is another object than the one that the multi-profile answers with. -/
theorem C81_result_violated : ∃ W, Reach false W ∧ ∃ j o, ∃ inv ∈ W.objs.map Prof.inv,
    (W.mpNew j o).1.mpGet j inv ≠ some (W.mpNew j o).2 := by
  refine ⟨w5, reach5 false, 0, 2, room, ?_, ?_⟩
  · exact List.mem_cons_self
  · decide +kernel

/-- C81 is violated by changing what `get` answers without a profile: the profile `not_applicable`
is one object for all symbols. -/
theorem C81_shared_violated : ∃ W, Reach false W ∧ ∃ inv ∈ W.objs.map Prof.inv, ∃ o,
    W.mpGet 0 inv = some o ∧ W.mpGet 1 inv = some o ∧ W.members 0 = [] ∧
    W.get o aLight = [16] ∧ (W.updateProfile o [.feat 12]).get o aLight = [12] := by
  refine ⟨w4, .newMulti (.newMulti (reach3 false)), room, List.mem_cons_self, 0, ?_⟩
  decide +kernel

namespace ProfileAux
/-- Another inventory with the alias of the first. -/
def room2 : FInv := ⟨2, "room", [aLight], 4⟩
def w6 : World := (w5.newInventory 2 "room" [aLight]).1
def w7 : World := (w6.newProfile room2 [.feat 13]).1

theorem room2Good : InvGood room2 := by
  refine ⟨?_, ?_, ?_, ?_, ?_⟩
  · decide +kernel
  · decide +kernel
  · intro a ha b hb f _ _
    simp only [room2, List.mem_cons, List.not_mem_nil, or_false] at ha hb
    rw [ha, hb]
  · intro a ha
    exact roomGood.any a (by simp only [room2, List.mem_cons, List.not_mem_nil, or_false] at ha; simp [room, ha])
  · intro a ha
    exact roomGood.na a (by simp only [room2, List.mem_cons, List.not_mem_nil, or_false] at ha; simp [room, ha])

theorem reach7 : Reach false w7 :=
  .newProfile 4 (w6.objs[4]'(by decide +kernel)) _ _
    (.newInventory 2 "room" _ (reach5 false) (by decide +kernel) room2Good) rfl

end ProfileAux

/-- C81 is violated for two inventories with the same alias: the profile of the second is dropped
without an error and the answer is `n_a`. -/
theorem C81_alias_violated : ∃ W, Reach false W ∧ ∃ (o : Nat) (p : Prof) (k : Nat),
    W.objs[o]? = some p ∧ W.get o aLight = [13] ∧ (W.mpNew 0 o).1.mpGet 0 p.inv = some k ∧
    (W.mpNew 0 o).1.get k aLight = [16] := by
  refine ⟨w7, reach7, 5, w7.objs[5]'(by decide +kernel), 4, rfl, ?_, ?_, ?_⟩ <;> decide +kernel

example : (w5.mpNew 0 2).1.get 3 aWarmth = [4] ∧ (w5.mpNew 0 2).1.get 3 aLight = [12] ∧
    (w5.mpNew 1 2).1.get 3 aWarmth = [2, 3] ∧
    (w5.mpCopy 0).1.members 2 = [5] ∧ (w5.mpCopy 0).1.get 5 aWarmth = [2, 3] := by decide +kernel

example : ∃ k, (w5.mpNew 0 2).1.mpGet 0 room = some k ∧
    ∀ x, x ∈ (w5.mpNew 0 2).1.get k aLight ↔ x ∈ w5.get 2 aLight := by
  obtain ⟨⟨k, h1, _, h3⟩, _⟩ := C81_new_partial (reach5 false) (j := 0) (o := 2)
    (p := w5.objs[2]'(by decide +kernel)) (by decide +kernel) rfl (.inl (by decide +kernel))
  exact ⟨k, h1, h3 aLight (List.mem_cons_of_mem _ List.mem_cons_self)⟩

example : (w5.addFeatures 0 [.feat 12, .feat 4]).get 3 aWarmth = [2, 3, 4] ∧
    (w5.addFeatures 0 [.feat 12, .feat 4]).get 3 aLight = [12] ∧
    w5.symbolHas 0 2 = true ∧ w5.symbolHas 1 2 = false := by decide +kernel

/-- C82 is violated for value lists: the symbol is hot and `hot` is in the list `warmth`, yet
`has_feature(warmth)` is false, unlike for a phonological symbol. -/
theorem C82_list_violated : ∃ W, Reach false W ∧ W.symbolHas 0 2 = true ∧
    1 ∈ aWarmth.aspect.parents 2 ∧ W.symbolHas 0 1 = false ∧
    W.phonHas aWarmth.aspect.parents 0 .other 1 = true := by
  refine ⟨w5, reach5 false, ?_⟩
  decide +kernel

/-- C82: `n_a` is kept when a feature is added to an aspect that was not applicable. -/
theorem C82_na_violated : ∃ W, Reach false W ∧ ∃ k ∈ W.members 1,
    (W.addFeatures 1 [.feat 12]).get k aLight = [16, 12] := by
  refine ⟨(w5.mpNew 1 0).1, .mpNew 1 0 (reach5 false) (by decide +kernel), 4, ?_⟩
  decide +kernel

end Nisaba.Props
