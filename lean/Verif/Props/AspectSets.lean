import Verif.Model.AspectSets
import Verif.Props.Feature
/-!
# C135: the sets of an aspect
-/
namespace Nisaba.Props

open Nisaba.Feature Nisaba.AspectSets

namespace AspectSetsAux

/-- An aspect after it was populated and after any calls. -/
def Reached (root : Val) (anyId naId : Nat) (S : State) : Prop :=
  ∃ cs, (AspectSets.populate root anyId naId).calls root cs = some S

/-- A feature is among the arguments: it is below a value or a member of a set that is given. -/
def Given (as : List Arg) (n : Nat) : Prop :=
  (∃ v, .val v ∈ as ∧ n ∈ leafIds v) ∨ ∃ l, .members l ∈ as ∧ n ∈ l

theorem mem_found {as : List Arg} {n : Nat} : n ∈ found as ↔ Given as n := by
  induction as with
  | nil => simp [found, Given]
  | cons a as ih =>
    cases a with
    | val v =>
      rw [found, List.mem_append, ih]
      simp only [Given, List.mem_cons, Arg.val.injEq, reduceCtorEq, false_or]
      constructor
      · rintro (h | ⟨w, h1, h2⟩ | h)
        · exact .inl ⟨v, .inl rfl, h⟩
        · exact .inl ⟨w, .inr h1, h2⟩
        · exact .inr h
      · rintro (⟨w, rfl | h1, h2⟩ | h)
        · exact .inl h2
        · exact .inr (.inl ⟨w, h1, h2⟩)
        · exact .inr (.inr h)
    | members l =>
      rw [found, List.mem_append, ih]
      simp only [Given, List.mem_cons, Arg.members.injEq, reduceCtorEq, false_or]
      constructor
      · rintro (h | h | ⟨w, h1, h2⟩)
        · exact .inr ⟨l, .inl rfl, h⟩
        · exact .inl h
        · exact .inr ⟨w, .inr h1, h2⟩
      · rintro (h | ⟨w, rfl | h1, h2⟩)
        · exact .inr (.inl h)
        · exact .inl h2
        · exact .inr (.inr ⟨w, h1, h2⟩)

theorem given_one (s : List Nat) (n : Nat) : Given [.members s] n ↔ n ∈ s := by
  rw [← mem_found]
  simp [found]

/-- What calls keep. -/
structure Ext (S S' : State) : Prop where
  owned : S'.base.owned = S.base.owned
  parents : S'.base.parents = S.base.parents
  keys : ∀ k, S.base.hasKey k = true → S'.base.hasKey k = true
  field : ∀ k, S.base.hasKey k = true → S'.base.field k = S.base.field k
  get : ∀ k s, S.get k = some s → S'.get k = some s

theorem Ext.refl (S : State) : Ext S S := ⟨rfl, rfl, fun _ h => h, fun _ _ => rfl, fun _ _ h => h⟩

theorem Ext.trans {S T U : State} (h : Ext S T) (h' : Ext T U) : Ext S U :=
  ⟨h'.owned.trans h.owned, h'.parents.trans h.parents, fun k hk => h'.keys k (h.keys k hk),
    fun k hk => (h'.field k (h.keys k hk)).trans (h.field k hk), fun k s e => h'.get k s (h.get k s e)⟩

/-- Every set is under a key of the aspect. -/
def Good (S : State) : Prop := ∀ k s, S.get k = some s → S.base.hasKey k = true

theorem get_append (B : Aspect) (sets : List (String × List Nat)) (k : String) (s : List Nat) (k' : String) :
    State.get ⟨B, sets ++ [(k, s)]⟩ k' =
      match State.get ⟨B, sets⟩ k' with
      | some t => some t
      | none => if k = k' then some s else none := by
  simp only [State.get, List.find?_append]
  cases h : sets.find? (fun p => p.1 == k') with
  | some p => simp
  | none => by_cases e : k = k' <;> simp [e]

theorem get_base (B B' : Aspect) (l : List (String × List Nat)) (k : String) :
    State.get ⟨B, l⟩ k = State.get ⟨B', l⟩ k := rfl

theorem addSet_ext {S : State} (hg : Good S) (k : String) (s : List Nat) :
    Ext S (S.addSet k s) ∧ Good (S.addSet k s) := by
  unfold State.addSet
  by_cases h : S.base.hasKey k = true
  · rw [if_pos h]
    exact ⟨.refl _, hg⟩
  · rw [if_neg h]
    have e : S.base.addSuppl k .set = { S.base with fields := S.base.fields ++ [(k, .set)] } := by
      simp [Aspect.addSuppl, h]
    have hk : ∀ k', (S.base.addSuppl k .set).hasKey k' = (S.base.hasKey k' || k == k') := by
      intro k'
      rw [e, hasKey_append]
    have hget : ∀ k' t, S.get k' = some t →
        State.get ⟨S.base.addSuppl k .set, S.sets ++ [(k, s)]⟩ k' = some t := by
      intro k' t ht
      rw [get_append, get_base _ S.base]
      have : State.get ⟨S.base, S.sets⟩ k' = some t := ht
      rw [this]
    refine ⟨⟨?_, ?_, ?_, ?_, hget⟩, ?_⟩
    · rw [e]
    · rw [e]
    · intro k' h'
      show (S.base.addSuppl k .set).hasKey k' = true
      rw [hk, h', Bool.true_or]
    · intro k' h'
      show (S.base.addSuppl k .set).field k' = S.base.field k'
      rw [e, FeatureAux.field_append, if_pos h']
    · intro k' t ht
      show (S.base.addSuppl k .set).hasKey k' = true
      rw [hk]
      rw [get_append, get_base _ S.base] at ht
      cases hS : State.get ⟨S.base, S.sets⟩ k' with
      | some u => rw [hg k' u hS, Bool.true_or]
      | none =>
        rw [hS] at ht
        by_cases e : k = k'
        · simp [e]
        · simp [e] at ht

theorem addSet_get {S : State} (hg : Good S) {k : String} (h : S.base.hasKey k = false) (s : List Nat) :
    (S.addSet k s).get k = some s := by
  unfold State.addSet
  rw [h]
  simp only [Bool.false_eq_true, if_false]
  rw [get_append, get_base _ S.base]
  cases hS : State.get ⟨S.base, S.sets⟩ k with
  | some u =>
    have := hg k u hS
    rw [h] at this
    cases this
  | none => simp

theorem set_ext {S S' : State} (hg : Good S) {k : String} {as : List Arg} {n : Bool}
    (h : S.set k as n = some S') : Ext S S' ∧ Good S' := by
  unfold State.set at h
  rw [Option.map_eq_some_iff] at h
  obtain ⟨s, _, rfl⟩ := h
  exact addSet_ext hg k s

theorem call_ext {S S' : State} (hg : Good S) {root : Val} {c : Call} (h : S.call root c = some S') :
    Ext S S' ∧ Good S' := by
  cases c with
  | set a as => exact set_ext hg h
  | setNot a as => exact set_ext hg h
  | setRange a f l =>
    simp only [State.call, State.setRange] at h
    split at h
    · cases h
    · split at h
      · cases h
      · split at h
        · cases h
        · exact set_ext hg h

theorem calls_ext {root : Val} : ∀ {S S' : State} (cs : List Call), Good S → S.calls root cs = some S' →
    Ext S S' ∧ Good S'
  | S, S', [], hg, h => by
    simp only [State.calls, Option.some.injEq] at h
    exact h ▸ ⟨.refl _, hg⟩
  | S, S', c :: cs, hg, h => by
    simp only [State.calls, Option.bind_eq_some_iff] at h
    obtain ⟨T, h1, h2⟩ := h
    obtain ⟨e1, g1⟩ := call_ext hg h1
    obtain ⟨e2, g2⟩ := calls_ext cs g1 h2
    exact ⟨e1.trans e2, g2⟩

theorem leaf_iff {root : Val} {anyId naId : Nat} (h : WellNamed root anyId naId) (n : Nat) :
    n ∈ (populateVal root Aspect.new).members ↔ n ∈ leafIds root := by
  constructor
  · intro hn
    obtain ⟨f, hf, e⟩ := (FeatureAux.base h).1.inv.sub n hn
    exact List.mem_map.2 ⟨f, hf, e⟩
  · intro hn
    obtain ⟨f, hf, rfl⟩ := List.mem_map.1 hn
    exact (FeatureAux.base h).2 f hf

/-- Facts about every aspect that is reached. -/
structure Facts (root : Val) (anyId naId : Nat) (S : State) : Prop where
  good : Good S
  owned : ∀ n, S.base.owned n = true ↔ n ∈ leafIds root ∨ n = anyId ∨ n = naId
  parents : S.base.parents = (Aspect.populate root anyId naId).parents
  any : S.base.field "any" = some (.feature anyId)
  na : S.base.field "n_a" = some (.feature naId)
  all : ∃ s, S.get "all" = some s ∧ ∀ n, n ∈ s ↔ n ∈ leafIds root

theorem hasKey_of_field {A : Aspect} {k : String} {v : Field} (h : A.field k = some v) : A.hasKey k = true := by
  simp only [Aspect.field, Option.map_eq_some_iff] at h
  obtain ⟨p, hp, _⟩ := h
  have h1 := List.mem_of_find?_eq_some hp
  have h2 : (p.1 == k) = true := List.find?_some (p := fun p : String × Field => p.1 == k) hp
  exact List.any_eq_true.2 ⟨p, h1, h2⟩

theorem addSuppl_key (A : Aspect) (k : String) (v : Field) (k' : String) (h : A.hasKey k' = true ∨ k = k') :
    (A.addSuppl k v).hasKey k' = true := by
  unfold Aspect.addSuppl
  by_cases hk : A.hasKey k = true
  · rw [if_pos hk]
    rcases h with h | rfl
    · exact h
    · exact hk
  · rw [if_neg hk, hasKey_append]
    rcases h with h | rfl
    · simp [h]
    · simp

theorem supplFeature_key (A : Aspect) (f : Feat) (k : String) (h : A.hasKey k = true) :
    (A.supplFeature f).hasKey k = true := addSuppl_key A f.alias _ k (.inl h)

mutual
theorem findList_sound (id : Nat) : ∀ (v : Val) {l : List Val}, findList id v = some l →
    ∃ al ty st, Sub (.list id al ty st l) v
  | .feat _, l, h => by simp [findList] at h
  | .list i al ty st items, l, h => by
    rw [findList] at h
    split at h
    · rename_i e
      cases h
      exact ⟨al, ty, st, e ▸ .refl _⟩
    · obtain ⟨w, hw, al', ty', st', hs⟩ := findListL_sound id items h
      exact ⟨al', ty', st', .step hw hs⟩
theorem findListL_sound (id : Nat) : ∀ (vs : List Val) {l : List Val}, findListL id vs = some l →
    ∃ w ∈ vs, ∃ al ty st, Sub (.list id al ty st l) w
  | [], l, h => by simp [findListL] at h
  | v :: vs, l, h => by
    rw [findListL] at h
    split at h
    · rename_i m hm
      cases h
      exact ⟨v, List.mem_cons_self .., findList_sound id v hm⟩
    · obtain ⟨w, hw, hs⟩ := findListL_sound id vs h
      exact ⟨w, List.mem_cons_of_mem _ hw, hs⟩
end

theorem findListL_isSome {id : Nat} {v : Val} (h : (findList id v).isSome) : ∀ {vs : List Val}, v ∈ vs →
    (findListL id vs).isSome
  | w :: vs, hv => by
    rw [findListL]
    split
    · rfl
    · rename_i hn
      rcases List.mem_cons.1 hv with rfl | hv
      · rw [hn] at h; cases h
      · exact findListL_isSome h hv

theorem findList_isSome {w root : Val} (hs : Sub w root) {id : Nat} {al : String} {ty : LType} {st : Rat}
    {items : List Val} (e : w = .list id al ty st items) : (findList id root).isSome := by
  induction hs with
  | refl => subst e; simp [findList]
  | step hv _ ih =>
    rw [findList]
    split
    · rfl
    · exact findListL_isSome ih hv

theorem findList_eq {root : Val} (hn : (nodeIds root).Nodup) {id : Nat} {al : String} {ty : LType} {st : Rat}
    {items : List Val} (hs : Sub (.list id al ty st items) root) : findList id root = some items := by
  obtain ⟨l, hl⟩ := Option.isSome_iff_exists.1 (findList_isSome hs rfl)
  obtain ⟨al', ty', st', hs'⟩ := findList_sound id root hl
  have := sub_unique hn hs hs' rfl
  cases this
  exact hl

theorem range_congr {A B : Aspect} (h : A.parents = B.parents) (id : Nat) (items : List Val) (x y : Val) :
    range A id items x y = range B id items x y := by
  unfold range
  rw [h]

theorem facts {root : Val} {anyId naId : Nat} (h : WellNamed root anyId naId) {S : State}
    (hr : Reached root anyId naId S) : Facts root anyId naId S := by
  obtain ⟨cs, hc⟩ := hr
  have hall : (populateVal root Aspect.new).hasKey "all" = false := FeatureAux.reserved_free h (by simp)
  have hp := FeatureAux.populated h
  have hkey : (Aspect.populate root anyId naId).hasKey "all" = true := by
    exact supplFeature_key _ _ _ (supplFeature_key _ _ _ (addSuppl_key _ _ _ _ (.inr rfl)))
  have g0 : Good (AspectSets.populate root anyId naId) := by
    intro k s hs
    simp only [AspectSets.populate, hall, Bool.false_eq_true, if_false, State.get] at hs ⊢
    by_cases e : "all" = k
    · rw [← e]; exact hkey
    · simp [e] at hs
  obtain ⟨e, g⟩ := calls_ext cs g0 hc
  refine ⟨g, ?_, e.parents, ?_, ?_, ?_⟩
  · intro n
    rw [e.owned]
    show (Aspect.populate root anyId naId).owned n = true ↔ _
    rw [hp.2.2.2.1 n, leaf_iff h]
  · rw [e.field "any" (hasKey_of_field hp.2.2.2.2.1)]
    exact hp.2.2.2.2.1
  · rw [e.field "n_a" (hasKey_of_field hp.2.2.2.2.2)]
    exact hp.2.2.2.2.2
  · refine ⟨_, e.get "all" ((populateVal root Aspect.new).members.filter (populateVal root Aspect.new).owned)
      (by simp [AspectSets.populate, hall, State.get]), ?_⟩
    intro n
    rw [List.mem_filter, (FeatureAux.base h).1.inv.owned n, leaf_iff h, and_self]

end AspectSetsAux

open AspectSetsAux

/-- C135: whatever calls were made, `all` has exactly the features of the value list of the aspect, not `any` and
not `n_a`. -/
theorem C135_all {root : Val} {anyId naId : Nat} (h : WellNamed root anyId naId) {S : State}
    (hr : Reached root anyId naId S) :
    ∃ s, S.get "all" = some s ∧ (∀ n, n ∈ s ↔ n ∈ leafIds root) ∧ anyId ∉ s ∧ naId ∉ s := by
  obtain ⟨s, h1, h2⟩ := (facts h hr).all
  refine ⟨s, h1, h2, fun hn => ?_, fun hn => ?_⟩
  · exact FeatureAux.leaf_ne ((h2 _).1 hn) h.anyNew rfl
  · exact FeatureAux.leaf_ne ((h2 _).1 hn) h.naNew rfl

/-- C135: `set` under a free alias keeps of the features given those of the aspect, with `any` and `n_a` among
them. -/
theorem C135_set {root : Val} {anyId naId : Nat} (h : WellNamed root anyId naId) {S : State}
    (hr : Reached root anyId naId S) (alias : String) (as : List Arg) (hf : S.base.hasKey alias = false) :
    ∃ S' s, S.set alias as = some S' ∧ S'.get alias = some s ∧
      ∀ n, n ∈ s ↔ Given as n ∧ (n ∈ leafIds root ∨ n = anyId ∨ n = naId) := by
  have F := facts h hr
  refine ⟨_, _, rfl, addSet_get F.good hf _, ?_⟩
  intro n
  rw [State.filter, List.mem_filter, F.owned, mem_found]

/-- C135: `set_not` under a free alias has the features of the aspect that are not given; never `any` or `n_a`. -/
theorem C135_set_not {root : Val} {anyId naId : Nat} (h : WellNamed root anyId naId) {S : State}
    (hr : Reached root anyId naId S) (alias : String) (as : List Arg) (hf : S.base.hasKey alias = false) :
    ∃ S' s, S.set alias as true = some S' ∧ S'.get alias = some s ∧
      ∀ n, n ∈ s ↔ n ∈ leafIds root ∧ ¬ Given as n := by
  have F := facts h hr
  obtain ⟨all, h1, h2⟩ := F.all
  refine ⟨_, _, by simp only [State.set, State.makeSet, h1]; rfl, addSet_get F.good hf _, ?_⟩
  intro n
  simp only [List.mem_filter, h2, State.filter, Bool.not_eq_true', List.contains_eq_mem, decide_eq_false_iff_not,
    F.owned, mem_found]
  constructor
  · rintro ⟨h3, h4⟩
    exact ⟨h3, fun h5 => h4 ⟨h5, .inl h3⟩⟩
  · rintro ⟨h3, h4⟩
    exact ⟨h3, fun h5 => h4 h5.1⟩

/-- C135: so `set` and `set_not` of the same features divide the features of the aspect. -/
theorem C135_divide {root : Val} {anyId naId : Nat} (h : WellNamed root anyId naId) {S : State}
    (hr : Reached root anyId naId S) (a b : String) (as : List Arg) (ha : S.base.hasKey a = false)
    (hb : S.base.hasKey b = false) :
    ∃ S' S'' s t, S.set a as = some S' ∧ S'.get a = some s ∧ S.set b as true = some S'' ∧ S''.get b = some t ∧
      (∀ n, ¬ (n ∈ s ∧ n ∈ t)) ∧ ∀ n ∈ leafIds root, n ∈ s ∨ n ∈ t := by
  obtain ⟨S', s, h1, h2, h3⟩ := C135_set h hr a as ha
  obtain ⟨S'', t, h4, h5, h6⟩ := C135_set_not h hr b as hb
  refine ⟨S', S'', s, t, h1, h2, h4, h5, ?_, ?_⟩
  · rintro n ⟨hs, ht⟩
    exact ((h6 n).1 ht).2 ((h3 n).1 hs).1
  · intro n hn
    by_cases hf : Given as n
    · exact .inl ((h3 n).2 ⟨hf, .inl hn⟩)
    · exact .inr ((h6 n).2 ⟨hn, hf⟩)

/-- C135: the complement of a complement has the features of the aspect among those given at first. -/
theorem C135_not_not {root : Val} {anyId naId : Nat} (h : WellNamed root anyId naId) {S : State}
    (hr : Reached root anyId naId S) (a b : String) (as : List Arg) (ha : S.base.hasKey a = false) {S' : State}
    {s : List Nat} (h1 : S.set a as true = some S') (h2 : S'.get a = some s) (hb : S'.base.hasKey b = false) :
    ∃ S'' t, S'.set b [.members s] true = some S'' ∧ S''.get b = some t ∧
      ∀ n, n ∈ t ↔ Given as n ∧ n ∈ leafIds root := by
  obtain ⟨cs, hc⟩ := hr
  have hr' : Reached root anyId naId S' := by
    refine ⟨cs ++ [.setNot a as], ?_⟩
    have : ∀ (cs : List Call) (T : State), T.calls root cs = some S → T.calls root (cs ++ [.setNot a as]) = some S' := by
      intro cs
      induction cs with
      | nil =>
        intro T hT
        simp only [State.calls, Option.some.injEq] at hT
        subst hT
        simp [State.calls, State.call, h1]
      | cons c cs ih =>
        intro T hT
        simp only [State.calls, Option.bind_eq_some_iff, List.cons_append] at hT ⊢
        obtain ⟨U, h1, h2⟩ := hT
        exact ⟨U, h1, ih U h2⟩
    exact this cs _ hc
  obtain ⟨T, s', h1', h2', h3⟩ := C135_set_not h ⟨cs, hc⟩ a as ha
  rw [h1] at h1'
  cases h1'
  rw [h2] at h2'
  cases h2'
  obtain ⟨S'', t, h4, h5, h6⟩ := C135_set_not h hr' b [.members s] hb
  refine ⟨S'', t, h4, h5, fun n => ?_⟩
  rw [h6, given_one, h3]
  by_cases hf : Given as n <;> simp [hf]

/-- C135: a call keeps every set there is, and with an alias that is taken nothing changes. -/
theorem C135_keep {root : Val} {anyId naId : Nat} (h : WellNamed root anyId naId) {S S' : State}
    (hr : Reached root anyId naId S) (c : Call) (hc : S.call root c = some S') :
    (∀ k s, S.get k = some s → S'.get k = some s) ∧ (S.base.hasKey c.alias = true → S' = S) ∧
      S'.base.distance = S.base.distance := by
  have F := facts h hr
  have hset : ∀ {k as n}, S.set k as n = some S' → (S.base.hasKey k = true → S' = S) ∧
      S'.base.distance = S.base.distance := by
    intro k as n e
    unfold State.set at e
    rw [Option.map_eq_some_iff] at e
    obtain ⟨s, _, rfl⟩ := e
    have hx := (addSet_ext F.good k s).1
    refine ⟨fun hk => by simp [State.addSet, hk], ?_⟩
    funext f g
    unfold Aspect.distance
    rw [hx.owned, hx.field "any" (hasKey_of_field F.any), hx.field "n_a" (hasKey_of_field F.na)]
    have : (S.addSet k s).base.dict = S.base.dict ∧ (S.addSet k s).base.maxDist = S.base.maxDist := by
      unfold State.addSet Aspect.addSuppl
      split
      · exact ⟨rfl, rfl⟩
      · exact ⟨rfl, rfl⟩
    rw [this.1, this.2]
  refine ⟨(call_ext F.good hc).1.get, ?_⟩
  cases c with
  | set a as => exact hset hc
  | setNot a as => exact hset hc
  | setRange a f l =>
    simp only [State.call, State.setRange] at hc
    split at hc
    · cases hc
    · split at hc
      · cases hc
      · split at hc
        · cases hc
        · exact hset hc

/-- C135: `set_range` of two values of one list has the features of the values from the first to the last place, going
round the end of the list if the first one comes later. -/
theorem C135_range {root : Val} {anyId naId : Nat} (h : WellNamed root anyId naId) {S : State}
    (hr : Reached root anyId naId S) (alias : String) (hf : S.base.hasKey alias = false)
    {id : Nat} {al : String} {ty : LType} {st : Rat} {items : List Val} (hs : Sub (.list id al ty st items) root)
    {i j : Nat} {x y : Val} (hi : items[i]? = some x) (hj : items[j]? = some y) (hij : i ≠ j) :
    ∃ S' s, S.setRange root alias x y = some S' ∧ S'.get alias = some s ∧
      ∀ n, n ∈ s ↔ ∃ (k : Nat) (v : Val), (if i < j then i ≤ k ∧ k ≤ j else i ≤ k ∨ k ≤ j) ∧ items[k]? = some v ∧
        n ∈ leafIds v := by
  have F := facts h hr
  have hx := List.mem_of_getElem? hi
  have hrange : ∃ s, range (Aspect.populate root anyId naId) id items x y = .ok s ∧
      ∀ n, n ∈ s ↔ ∃ (k : Nat) (v : Val), (if i < j then i ≤ k ∧ k ≤ j else i ≤ k ∨ k ≤ j) ∧ items[k]? = some v ∧
        n ∈ leafIds v := by
    by_cases hlt : i < j
    · obtain ⟨s, h1, h2⟩ := C43_forward_partial h hs hi hj hlt
      refine ⟨s, h1, fun n => ?_⟩
      simp only [h2, if_pos hlt, and_assoc]
    · obtain ⟨s, h1, h2⟩ := C43_round_partial h hs hi hj (by omega)
      refine ⟨s, h1, fun n => ?_⟩
      simp only [h2, if_neg hlt]
  obtain ⟨s, h1, h2⟩ := hrange
  obtain ⟨S', t, h3, h4, h5⟩ := C135_set h hr alias [.members s] hf
  refine ⟨S', t, ?_, h4, fun n => ?_⟩
  · unfold State.setRange
    rw [F.parents, FeatureAux.parents_eq h hs hx]
    simp only [findList_eq h.ids hs, range_congr F.parents, h1, h3]
  · rw [h5, given_one, h2]
    constructor
    · exact fun hn => hn.1
    · intro hn
      refine ⟨hn, .inl ?_⟩
      obtain ⟨k, v, _, hv, hl⟩ := hn
      obtain ⟨f, hf, rfl⟩ := List.mem_map.1 hl
      exact List.mem_map.2 ⟨f, leaves_sub.2 ((leaves_sub.1 hf).trans ((Sub.step (List.mem_of_getElem? hv) (.refl _)).trans hs)), rfl⟩

/-- C135: values of different lists of the aspect give an empty set; the root of the aspect has no range (an
`IndexError`). -/
theorem C135_range_other {root : Val} {anyId naId : Nat} (h : WellNamed root anyId naId) {S : State}
    (hr : Reached root anyId naId S) (alias : String) (hf : S.base.hasKey alias = false)
    {id id' : Nat} {al al' : String} {ty ty' : LType} {st st' : Rat} {items items' : List Val}
    (hs : Sub (.list id al ty st items) root) (hs' : Sub (.list id' al' ty' st' items') root)
    (hne : id ≠ id') {x y : Val} (hx : x ∈ items) (hy : y ∈ items') :
    (∃ S' s, S.setRange root alias x y = some S' ∧ S'.get alias = some s ∧ ∀ n, n ∉ s) ∧
      S.setRange root alias root y = none := by
  have F := facts h hr
  constructor
  · obtain ⟨S', t, h3, h4, h5⟩ := C135_set h hr alias [.members []] hf
    refine ⟨S', t, ?_, h4, fun n hn => ?_⟩
    · unfold State.setRange
      rw [F.parents, FeatureAux.parents_eq h hs hx]
      simp only [findList_eq h.ids hs, range_congr F.parents, (C43_other_list h hs hs' hne hx hy).1, h3]
    · have := ((h5 n).1 hn).1
      simp [given_one] at this
  · unfold State.setRange
    rw [F.parents, FeatureAux.parents_root h]

/-- C135: `non_generic` leaves out `any` and `n_a` and nothing else. -/
theorem C135_non_generic {root : Val} {anyId naId : Nat} (h : WellNamed root anyId naId) {S : State}
    (hr : Reached root anyId naId S) (s : List Nat) (n : Nat) :
    n ∈ S.nonGeneric s ↔ n ∈ s ∧ n ≠ anyId ∧ n ≠ naId := by
  have F := facts h hr
  simp only [State.nonGeneric, F.any, F.na, List.mem_filter, Bool.and_eq_true, Bool.not_eq_true', beq_eq_false_iff_ne,
    ne_eq, Option.some.injEq, Field.feature.injEq]
  constructor
  · rintro ⟨h1, h2, h3⟩
    exact ⟨h1, Ne.symm h2, Ne.symm h3⟩
  · rintro ⟨h1, h2, h3⟩
    exact ⟨h1, Ne.symm h2, Ne.symm h3⟩

/-- C135: two sets are equal exactly if they have the same features. -/
theorem C135_equal (s t : List Nat) : isEqual s t = true ↔ ∀ n, n ∈ s ↔ n ∈ t := by
  simp only [isEqual, Bool.and_eq_true, List.all_eq_true, List.contains_eq_mem, decide_eq_true_eq]
  exact ⟨fun h n => ⟨h.1 n, h.2 n⟩, fun h => ⟨fun n => (h n).1, fun n => (h n).2⟩⟩

-- Non-vacuity: the aspect `color`, two sets and a range one after the other.
example : ((AspectSets.populate colours 7 8).calls colours
      [.set "warm" [.val (.feat ⟨1, "red"⟩), .members [2, 3, 99]], .setNot "cold" [.members [1, 2, 3]],
        .setRange "round" (.feat ⟨5, "blue"⟩) (.feat ⟨2, "orange"⟩), .set "warm" [.members [4]],
        .set "some" [.members [7, 1]]]).map (fun S =>
      [S.get "all", S.get "warm", S.get "cold", S.get "round", (S.get "some").map S.nonGeneric]) =
    some [some [1, 2, 3, 4, 5, 6], some [1, 2, 3], some [4, 5, 6], some [1, 2, 5, 6], some [1]] := by
  decide +kernel

example : ∃ S', Reached colours 7 8 S' ∧ S'.base.hasKey "warm" = true ∧ S'.base.hasKey "cold" = false := by
  refine ⟨((AspectSets.populate colours 7 8).set "warm" [.members [1]]).get (by decide +kernel), ⟨[.set "warm" [.members [1]]], ?_⟩,
    by decide +kernel, by decide +kernel⟩
  simp [State.calls, State.call]

example : isEqual [1, 2, 2] [2, 1] = true ∧ isEqual [1] [2, 1] = false := by decide

end Nisaba.Props
