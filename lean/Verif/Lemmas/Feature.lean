import Verif.Model.Feature
/-!
# Lemmas about the feature model: what `populate` writes
-/
namespace Nisaba.Feature

abbrev Triple := Feat × Feat × Rat

/-- All pairs of a feature below `v` and a feature below `w`. -/
def cross (v w : Val) (d : Rat) : List Triple :=
  (leaves v).flatMap (fun a => (leaves w).map (fun b => (a, b, d)))

mutual
/-- The pairs for which `populate` stores a distance, in order. -/
def triples : Val → List Triple
  | .feat _ => []
  | .list _ _ ty st items => triplesL ty st items items
def triplesL (ty : LType) (st : Rat) (all : List Val) : List Val → List Triple
  | [] => []
  | v :: vs =>
    triples v ++ vs.flatMap (fun w => cross v w (listDistance ty st all v.id w.id)) ++
      triplesL ty st all vs
end

mutual
/-- Aliases of the value lists of a tree. -/
def listAliases : Val → List String
  | .feat _ => []
  | .list _ al _ _ items => al :: listAliasesL items
def listAliasesL : List Val → List String
  | [] => []
  | v :: vs => listAliases v ++ listAliasesL vs
end

mutual
/-- Ids of all nodes of a tree. -/
def nodeIds : Val → List Nat
  | .feat f => [f.id]
  | .list id _ _ _ items => id :: nodeIdsL items
def nodeIdsL : List Val → List Nat
  | [] => []
  | v :: vs => nodeIds v ++ nodeIdsL vs
end

def featStep (f : Feat) (d : Rat) (A : Aspect) (g : Feat) : Aspect :=
  if A.owned f.id then A.addDistance f g d else A

mutual
theorem featAddDistance_eq (f : Feat) (d : Rat) : ∀ (w : Val) (A : Aspect),
    featAddDistance f d w A = (leaves w).foldl (featStep f d) A
  | .feat g, A => by simp [featAddDistance, leaves, featStep]
  | .list _ _ _ _ items, A => by
    simp only [featAddDistance, leaves]
    exact featAddDistances_eq f d items A
theorem featAddDistances_eq (f : Feat) (d : Rat) : ∀ (ws : List Val) (A : Aspect),
    featAddDistances f d ws A = (leavesL ws).foldl (featStep f d) A
  | [], A => by simp [featAddDistances, leavesL]
  | w :: ws, A => by
    simp only [featAddDistances, leavesL, List.foldl_append]
    rw [featAddDistance_eq f d w A, featAddDistances_eq f d ws]
end

mutual
theorem addDistanceVal_eq (w : Val) (d : Rat) : ∀ (v : Val) (A : Aspect),
    addDistanceVal w d v A =
      (leaves v).foldl (fun A f => (leaves w).foldl (featStep f d) A) A
  | .feat f, A => by simp [addDistanceVal, leaves, featAddDistance_eq]
  | .list _ _ _ _ items, A => by
    simp only [addDistanceVal, leaves]
    exact addDistanceVals_eq w d items A
theorem addDistanceVals_eq (w : Val) (d : Rat) : ∀ (vs : List Val) (A : Aspect),
    addDistanceVals w d vs A =
      (leavesL vs).foldl (fun A f => (leaves w).foldl (featStep f d) A) A
  | [], A => by simp [addDistanceVals, leavesL]
  | v :: vs, A => by
    simp only [addDistanceVals, leavesL, List.foldl_append]
    rw [addDistanceVal_eq w d v A, addDistanceVals_eq w d vs]
end

def Aspect.get (A : Aspect) (x y : Nat) : Option Rat := (A.dict x).bind (fun t => t y)

def upd (G : Nat → Nat → Option Rat) (t : Triple) : Nat → Nat → Option Rat := fun x y =>
  if (x = t.1.id ∧ y = t.2.1.id) ∨ (x = t.2.1.id ∧ y = t.1.id) then some t.2.2 else G x y

def maxStep (m : Rat) (t : Triple) : Rat := if m < t.2.2 then t.2.2 else m

/-- The features `U` can be told apart by id and by alias. -/
structure UOk (U : List Feat) (K : List String) : Prop where
  mem : ∀ f ∈ U, f.alias ∈ K
  alias : ∀ f ∈ U, ∀ g ∈ U, f.alias = g.alias → f = g
  id : ∀ f ∈ U, ∀ g ∈ U, f.id = g.id → f = g

structure AInv (U : List Feat) (A : Aspect) : Prop where
  free : ∀ f ∈ U, f.id ∈ A.members ∨ A.hasKey f.alias = false
  dnone : ∀ n, n ∉ A.members → A.dict n = none
  dsome : ∀ n, n ∈ A.members → (A.dict n).isSome = true
  owned : ∀ n, A.owned n = true ↔ n ∈ A.members
  sub : ∀ n, n ∈ A.members → ∃ f ∈ U, f.id = n

/-- `A'` is `A` with the distances of `T` stored. -/
structure Res (U : List Feat) (K : List String) (T : List Triple) (A A' : Aspect) : Prop where
  inv : AInv U A'
  get : A'.get = T.foldl upd A.get
  max : A'.maxDist = T.foldl maxStep A.maxDist
  mem : ∀ n, n ∈ A.members → n ∈ A'.members
  keys : ∀ k, k ∉ K → A'.hasKey k = A.hasKey k

theorem Res.refl {U K A} (h : AInv U A) : Res U K [] A A :=
  ⟨h, rfl, rfl, fun _ h => h, fun _ _ => rfl⟩

theorem Res.trans {U K T₁ T₂ A B C} (h₁ : Res U K T₁ A B) (h₂ : Res U K T₂ B C) :
    Res U K (T₁ ++ T₂) A C where
  inv := h₂.inv
  get := by rw [h₂.get, h₁.get, List.foldl_append]
  max := by rw [h₂.max, h₁.max, List.foldl_append]
  mem := fun n h => h₂.mem n (h₁.mem n h)
  keys := fun k h => (h₂.keys k h).trans (h₁.keys k h)

theorem hasKey_append (A : Aspect) (k : String) (v : Field) (k' : String) :
    Aspect.hasKey { A with fields := A.fields ++ [(k, v)] } k' = (A.hasKey k' || k == k') := by
  simp [Aspect.hasKey, List.any_append]

theorem addFeature_res {U K} (hU : UOk U K) {A : Aspect} (h : AInv U A) {f : Feat} (hf : f ∈ U)
    (hm : f.id ∉ A.members) :
    Res U K [] A (A.addFeature f) ∧ f.id ∈ (A.addFeature f).members ∧
      (A.addFeature f).parents = A.parents := by
  have hk : A.hasKey f.alias = false := (h.free f hf).resolve_left hm
  have e : A.addItem f = { A with
      fields := A.fields ++ [(f.alias, .feature f.id)]
      members := A.members ++ [f.id] } := by
    simp [Aspect.addItem, hm, hk]
  have ek : ∀ k, (A.addFeature f).hasKey k = (A.hasKey k || f.alias == k) := by
    intro k
    simp only [Aspect.addFeature, e, Aspect.hasKey, List.any_append]
    simp
  have em : (A.addFeature f).members = A.members ++ [f.id] := by simp [Aspect.addFeature, e]
  have ed : (A.addFeature f).dict = fun n => if n = f.id then some (fun _ => none) else A.dict n := by
    simp [Aspect.addFeature, e]
  have eo : (A.addFeature f).owned = fun n => if n = f.id then true else A.owned n := by
    simp [Aspect.addFeature, e]
  refine ⟨⟨⟨?_, ?_, ?_, ?_, ?_⟩, ?_, ?_, ?_, ?_⟩, ?_, ?_⟩
  · intro g hg
    rw [em, ek]
    rcases h.free g hg with h1 | h1
    · exact .inl (by simp [h1])
    · by_cases hfg : g.id = f.id
      · exact .inl (by simp [hfg])
      · refine .inr ?_
        rw [h1]
        simp only [Bool.false_or, beq_eq_false_iff_ne, ne_eq]
        intro ea
        exact hfg (by rw [hU.alias f hf g hg ea])
  · intro n hn
    rw [em] at hn
    simp only [List.mem_append, List.mem_singleton, not_or] at hn
    rw [ed]
    simp only [if_neg hn.2]
    exact h.dnone n hn.1
  · intro n hn
    rw [em] at hn
    rw [ed]
    by_cases e1 : n = f.id
    · simp [e1]
    · simp only [List.mem_append, List.mem_singleton, e1, or_false] at hn
      simp only [if_neg e1]
      exact h.dsome n hn
  · intro n
    rw [em, eo]
    by_cases e1 : n = f.id
    · simp [e1]
    · simp [e1, h.owned n]
  · intro n hn
    rw [em] at hn
    simp only [List.mem_append, List.mem_singleton] at hn
    rcases hn with hn | hn
    · exact h.sub n hn
    · exact ⟨f, hf, hn.symm⟩
  · funext x y
    simp only [List.foldl_nil, Aspect.get, ed]
    by_cases e1 : x = f.id
    · subst e1
      simp [h.dnone _ hm]
    · simp [e1]
  · simp [Aspect.addFeature, e]
  · intro n hn
    rw [em]
    simp [hn]
  · intro k hk'
    rw [ek]
    have : (f.alias == k) = false := by
      simp only [beq_eq_false_iff_ne, ne_eq]
      intro ea
      exact hk' (ea ▸ hU.mem f hf)
    simp [this]
  · rw [em]; simp
  · simp [Aspect.addFeature, e]

/-- `if f not in self: self.add_feature(f)`. -/
theorem ensure_res {U K} (hU : UOk U K) {A : Aspect} (h : AInv U A) {f : Feat} (hf : f ∈ U) :
    Res U K [] A (if A.members.contains f.id then A else A.addFeature f) ∧
      f.id ∈ (if A.members.contains f.id then A else A.addFeature f).members ∧
      (if A.members.contains f.id then A else A.addFeature f).parents = A.parents := by
  by_cases hm : f.id ∈ A.members
  · simp [hm, Res.refl h]
  · have : A.members.contains f.id = false := by simp [hm]
    simp only [this, Bool.false_eq_true, if_false]
    exact addFeature_res hU h hf hm

theorem put_get (A : Aspect) (x y : Nat) (d : Rat) (hx : (A.dict x).isSome) :
    (A.put x y d).get = fun a b => if a = x ∧ b = y then some d else A.get a b := by
  funext a b
  simp only [Aspect.get, Aspect.put]
  by_cases e : a = x
  · subst e
    obtain ⟨t, ht⟩ := Option.isSome_iff_exists.1 hx
    simp [ht]
  · simp [e]

theorem put_inv {U} {A : Aspect} (h : AInv U A) (x y : Nat) (d : Rat) : AInv U (A.put x y d) := by
  refine ⟨h.free, ?_, ?_, h.owned, h.sub⟩
  · intro n hn
    have := h.dnone n hn
    simp only [Aspect.put]
    split <;> simp [this]
  · intro n hn
    have := h.dsome n hn
    simp only [Aspect.put]
    split <;> simpa using this

def finish (C : Aspect) (f g : Feat) (d : Rat) : Aspect :=
  if ((C.put f.id g.id d).put g.id f.id d).maxDist < d then
    { (C.put f.id g.id d).put g.id f.id d with maxDist := d }
  else (C.put f.id g.id d).put g.id f.id d

theorem addDistance_def (A : Aspect) (f g : Feat) (d : Rat) (B C : Aspect)
    (hB : (if A.members.contains f.id then A else A.addFeature f) = B)
    (hC : (if B.members.contains g.id then B else B.addFeature g) = C) :
    A.addDistance f g d = finish C f g d := by
  subst hB hC
  rfl

theorem addDistance_res {U K} (hU : UOk U K) {A : Aspect} (h : AInv U A) {f g : Feat} (hf : f ∈ U)
    (hg : g ∈ U) (d : Rat) :
    Res U K [(f, g, d)] A (A.addDistance f g d) ∧ f.id ∈ (A.addDistance f g d).members ∧
      g.id ∈ (A.addDistance f g d).members ∧ (A.addDistance f g d).parents = A.parents := by
  obtain ⟨r1, m1, p1⟩ := ensure_res hU h hf
  obtain ⟨r2, m2, p2⟩ := ensure_res hU r1.inv hg
  rw [addDistance_def A f g d _ _ rfl rfl]
  generalize (if A.members.contains f.id then A else A.addFeature f) = B at *
  generalize (if B.members.contains g.id then B else B.addFeature g) = C at *
  have hfC : f.id ∈ C.members := r2.mem _ m1
  have i1 := put_inv r2.inv f.id g.id d
  have i2 := put_inv i1 g.id f.id d
  have g1 := put_get C f.id g.id d (r2.inv.dsome _ hfC)
  have g2 := put_get (C.put f.id g.id d) g.id f.id d (i1.dsome _ m2)
  have hget : ((C.put f.id g.id d).put g.id f.id d).get = upd A.get (f, g, d) := by
    rw [g2, g1, r2.get, r1.get]
    funext x y
    simp only [List.foldl_nil, upd]
    grind
  have hmax : C.maxDist = A.maxDist := by rw [r2.max, r1.max]; rfl
  have hmem : ∀ n, n ∈ A.members → n ∈ C.members := fun n hn => r2.mem n (r1.mem n hn)
  have hkeys : ∀ k, k ∉ K → C.hasKey k = A.hasKey k := fun k hk => (r2.keys k hk).trans (r1.keys k hk)
  unfold finish
  have e0 : ((C.put f.id g.id d).put g.id f.id d).maxDist = A.maxDist := hmax
  split
  · rename_i hlt
    refine ⟨⟨⟨i2.free, i2.dnone, i2.dsome, i2.owned, i2.sub⟩, hget, ?_, hmem, hkeys⟩, hfC, m2, p2.trans p1⟩
    rw [e0] at hlt
    simp [maxStep, hlt]
  · rename_i hlt
    refine ⟨⟨i2, hget, ?_, hmem, hkeys⟩, hfC, m2, p2.trans p1⟩
    rw [e0] at hlt ⊢
    simp [maxStep, hlt]

theorem featSteps_res {U K} (hU : UOk U K) {f : Feat} (hf : f ∈ U) (d : Rat) :
    ∀ (gs : List Feat) (A : Aspect), AInv U A → f.id ∈ A.members → (∀ g ∈ gs, g ∈ U) →
      Res U K (gs.map (fun b => (f, b, d))) A (gs.foldl (featStep f d) A) ∧
        (gs.foldl (featStep f d) A).parents = A.parents
  | [], A, h, _, _ => ⟨Res.refl h, rfl⟩
  | g :: gs, A, h, hm, hgs => by
    have ho : A.owned f.id = true := (h.owned _).2 hm
    obtain ⟨r1, m1, _, p1⟩ := addDistance_res hU h hf (hgs g (by simp)) d
    have e : featStep f d A g = A.addDistance f g d := by simp [featStep, ho]
    simp only [List.foldl_cons, e, List.map_cons]
    obtain ⟨r2, p2⟩ := featSteps_res hU hf d gs _ r1.inv m1 (fun x hx => hgs x (by simp [hx]))
    exact ⟨r1.trans r2, p2.trans p1⟩

theorem crossSteps_res {U K} (hU : UOk U K) (d : Rat) (ws : List Feat) (hw : ∀ g ∈ ws, g ∈ U) :
    ∀ (fs : List Feat) (A : Aspect), AInv U A → (∀ f ∈ fs, f ∈ U) → (∀ f ∈ fs, f.id ∈ A.members) →
      Res U K (fs.flatMap (fun a => ws.map (fun b => (a, b, d)))) A
          (fs.foldl (fun A f => ws.foldl (featStep f d) A) A) ∧
        (fs.foldl (fun A f => ws.foldl (featStep f d) A) A).parents = A.parents
  | [], A, h, _, _ => ⟨Res.refl h, rfl⟩
  | f :: fs, A, h, hfs, hm => by
    obtain ⟨r1, p1⟩ := featSteps_res hU (hfs f (by simp)) d ws A h (hm f (by simp)) hw
    obtain ⟨r2, p2⟩ := crossSteps_res hU d ws hw fs _ r1.inv (fun x hx => hfs x (by simp [hx]))
      (fun x hx => r1.mem _ (hm x (by simp [hx])))
    simp only [List.foldl_cons, List.flatMap_cons]
    exact ⟨r1.trans r2, p2.trans p1⟩

theorem mem_leavesL {vs : List Val} {v : Val} (h : v ∈ vs) {f : Feat} (hf : f ∈ leaves v) :
    f ∈ leavesL vs := by
  induction vs with
  | nil => cases h
  | cons w ws ih =>
    simp only [leavesL, List.mem_append]
    rcases List.mem_cons.1 h with rfl | h
    · exact .inl hf
    · exact .inr (ih h)

theorem mem_leavesL_iff {vs : List Val} {f : Feat} :
    f ∈ leavesL vs ↔ ∃ v ∈ vs, f ∈ leaves v := by
  induction vs with
  | nil => simp [leavesL]
  | cons w ws ih => simp [leavesL, ih]

theorem restSteps_res {U K} (hU : UOk U K) (dist : Val → Rat) (item : Val) :
    ∀ (rest : List Val) (A : Aspect), AInv U A → (∀ f ∈ leaves item, f ∈ U) →
      (∀ f ∈ leaves item, f.id ∈ A.members) → (∀ w ∈ rest, ∀ f ∈ leaves w, f ∈ U) →
      Res U K (rest.flatMap (fun w => cross item w (dist w))) A
          (rest.foldl (fun A w => addDistanceVal w (dist w) item A) A) ∧
        (rest.foldl (fun A w => addDistanceVal w (dist w) item A) A).parents = A.parents
  | [], A, h, _, _, _ => ⟨Res.refl h, rfl⟩
  | w :: ws, A, h, hi, hm, hr => by
    obtain ⟨r1, p1⟩ := crossSteps_res hU (dist w) (leaves w) (hr w (by simp)) (leaves item) A h hi hm
    rw [← addDistanceVal_eq] at r1 p1
    obtain ⟨r2, p2⟩ := restSteps_res hU dist item ws _ r1.inv hi (fun f hf => r1.mem _ (hm f hf))
      (fun x hx => hr x (by simp [hx]))
    simp only [List.foldl_cons, List.flatMap_cons]
    exact ⟨r1.trans r2, p2.trans p1⟩

theorem addSuppl_res {U K} {A : Aspect} (h : AInv U A) {al : String} (hk : al ∈ K)
    (hne : ∀ f ∈ U, f.alias ≠ al) (v : Field) :
    Res U K [] A (A.addSuppl al v) ∧ (A.addSuppl al v).parents = A.parents := by
  unfold Aspect.addSuppl
  split
  · exact ⟨Res.refl h, rfl⟩
  · refine ⟨⟨⟨?_, h.dnone, h.dsome, h.owned, h.sub⟩, rfl, rfl, fun _ h => h, ?_⟩, rfl⟩
    · intro f hf
      rcases h.free f hf with h1 | h1
      · exact .inl h1
      · refine .inr ?_
        rw [hasKey_append, h1]
        simp only [Bool.false_or, beq_eq_false_iff_ne, ne_eq]
        exact fun e => hne f hf e.symm
    · intro k hk'
      rw [hasKey_append]
      have : (al == k) = false := by
        simp only [beq_eq_false_iff_ne, ne_eq]
        rintro rfl
        exact hk' hk
      simp [this]

mutual
theorem populateVal_res {U K} (hU : UOk U K) : ∀ (v : Val) (A : Aspect), AInv U A →
    (∀ f ∈ leaves v, f ∈ U) → (∀ al ∈ listAliases v, al ∈ K ∧ ∀ f ∈ U, f.alias ≠ al) →
    Res U K (triples v) A (populateVal v A) ∧ ∀ f ∈ leaves v, f.id ∈ (populateVal v A).members
  | .feat f, A, h, hl, _ => by
    obtain ⟨r, m, _⟩ := ensure_res hU h (hl f (by simp [leaves]))
    refine ⟨?_, ?_⟩
    · simpa [triples, populateVal] using r
    · intro g hg
      simp only [leaves, List.mem_singleton] at hg
      subst hg
      simpa only [populateVal] using m
  | .list id al ty st items, A, h, hl, ha => by
    have ha1 := ha al (by simp [listAliases])
    obtain ⟨r1, _⟩ := addSuppl_res h ha1.1 ha1.2 (.valueList id)
    obtain ⟨r2, m2⟩ := populateItems_res hU id ty st items items _ r1.inv
      (by simpa only [leaves] using hl)
      (fun x hx => ha x (by simp [listAliases, hx]))
    simp only [populateVal, triples, leaves]
    exact ⟨r1.trans r2, m2⟩
theorem populateItems_res {U K} (hU : UOk U K) (id : Nat) (ty : LType) (st : Rat) (all : List Val) :
    ∀ (vs : List Val) (A : Aspect), AInv U A →
    (∀ f ∈ leavesL vs, f ∈ U) → (∀ al ∈ listAliasesL vs, al ∈ K ∧ ∀ f ∈ U, f.alias ≠ al) →
    Res U K (triplesL ty st all vs) A (populateItems id ty st all vs A) ∧
      ∀ f ∈ leavesL vs, f.id ∈ (populateItems id ty st all vs A).members
  | [], A, h, _, _ => by
    simp only [populateItems, triplesL, leavesL]
    exact ⟨Res.refl h, by simp⟩
  | v :: vs, A, h, hl, ha => by
    have h1 : AInv U (A.setParent v.id id) := ⟨h.free, h.dnone, h.dsome, h.owned, h.sub⟩
    have r1 : Res U K [] A (A.setParent v.id id) := ⟨h1, rfl, rfl, fun _ h => h, fun _ _ => rfl⟩
    have hlv : ∀ f ∈ leaves v, f ∈ U := fun f hf => hl f (by simp [leavesL, hf])
    have hlvs : ∀ f ∈ leavesL vs, f ∈ U := fun f hf => hl f (by simp [leavesL, hf])
    obtain ⟨r2, m2⟩ := populateVal_res hU v _ h1 hlv
      (fun x hx => ha x (by simp [listAliasesL, hx]))
    obtain ⟨r3, _⟩ := restSteps_res hU (fun w => listDistance ty st all v.id w.id) v vs _ r2.inv hlv m2
      (fun w hw f hf => hlvs f (mem_leavesL hw hf))
    obtain ⟨r4, m4⟩ := populateItems_res hU id ty st all vs _ r3.inv hlvs
      (fun x hx => ha x (by simp [listAliasesL, hx]))
    simp only [populateItems, triplesL, leavesL]
    refine ⟨?_, ?_⟩
    · exact ((r1.trans r2).trans r3).trans r4
    · intro f hf
      rcases List.mem_append.1 hf with hf | hf
      · exact r4.mem _ (r3.mem _ (m2 f hf))
      · exact m4 f hf
end

/-! ## The tree -/

/-- `w` is `v` or occurs somewhere in it. -/
inductive Sub : Val → Val → Prop
  | refl (v : Val) : Sub v v
  | step {w v : Val} {id al ty st items} : v ∈ items → Sub w v → Sub w (.list id al ty st items)

theorem Sub.trans {a b c : Val} (h₁ : Sub a b) (h₂ : Sub b c) : Sub a c := by
  induction h₂ with
  | refl => exact h₁
  | step hv _ ih => exact .step hv ih

theorem mem_nodeIdsL {vs : List Val} {n : Nat} : n ∈ nodeIdsL vs ↔ ∃ v ∈ vs, n ∈ nodeIds v := by
  induction vs with
  | nil => simp [nodeIdsL]
  | cons w ws ih => simp [nodeIdsL, ih]

theorem id_mem_nodeIds (v : Val) : v.id ∈ nodeIds v := by
  cases v <;> simp [nodeIds, Val.id]

theorem Sub.id_mem {w v : Val} (h : Sub w v) : w.id ∈ nodeIds v := by
  induction h with
  | refl => exact id_mem_nodeIds _
  | step hv _ ih =>
    simp only [nodeIds, List.mem_cons]
    exact .inr (mem_nodeIdsL.2 ⟨_, hv, ih⟩)

mutual
theorem leaf_id_mem : ∀ (v : Val) {f : Feat}, f ∈ leaves v → f.id ∈ nodeIds v
  | .feat g, f, h => by
    simp only [leaves, List.mem_singleton] at h
    simp [nodeIds, h]
  | .list _ _ _ _ items, f, h => by
    simp only [leaves] at h
    simp only [nodeIds, List.mem_cons]
    exact .inr (leaf_id_memL items h)
theorem leaf_id_memL : ∀ (vs : List Val) {f : Feat}, f ∈ leavesL vs → f.id ∈ nodeIdsL vs
  | [], f, h => by simp [leavesL] at h
  | v :: vs, f, h => by
    simp only [leavesL, List.mem_append] at h
    simp only [nodeIdsL, List.mem_append]
    exact h.imp (leaf_id_mem v) (leaf_id_memL vs)
end

mutual
theorem leafIds_sublist : ∀ v : Val, ((leaves v).map (·.id)).Sublist (nodeIds v)
  | .feat g => by simp [leaves, nodeIds]
  | .list _ _ _ _ items => by
    simp only [leaves, nodeIds]
    exact (leafIdsL_sublist items).cons _
theorem leafIdsL_sublist : ∀ vs : List Val, ((leavesL vs).map (·.id)).Sublist (nodeIdsL vs)
  | [] => by simp [leavesL, nodeIdsL]
  | v :: vs => by
    simp only [leavesL, nodeIdsL, List.map_append]
    exact (leafIds_sublist v).append (leafIdsL_sublist vs)
end

theorem leaves_sub {v : Val} {f : Feat} : f ∈ leaves v ↔ Sub (.feat f) v := by
  constructor
  · exact go v
  · intro h
    generalize hw : Val.feat f = w at h
    induction h with
    | refl => subst hw; simp [leaves]
    | step hv _ ih =>
      simp only [leaves]
      exact mem_leavesL hv ih
where
  go : ∀ (v : Val), f ∈ leaves v → Sub (.feat f) v
  | .feat g, h => by
    simp only [leaves, List.mem_singleton] at h
    subst h
    exact .refl _
  | .list _ _ _ _ items, h => by
    simp only [leaves] at h
    obtain ⟨v, hv, hs⟩ := goL items h
    exact .step hv hs
  goL : ∀ (vs : List Val), f ∈ leavesL vs → ∃ v ∈ vs, Sub (.feat f) v
  | [], h => by simp [leavesL] at h
  | v :: vs, h => by
    simp only [leavesL, List.mem_append] at h
    rcases h with h | h
    · exact ⟨v, by simp, go v h⟩
    · obtain ⟨w, hw, hs⟩ := goL vs h
      exact ⟨w, by simp [hw], hs⟩

theorem nodup_item {vs : List Val} (h : (nodeIdsL vs).Nodup) {v : Val} (hv : v ∈ vs) :
    (nodeIds v).Nodup := by
  induction vs with
  | nil => cases hv
  | cons w ws ih =>
    simp only [nodeIdsL, List.nodup_append] at h
    rcases List.mem_cons.1 hv with rfl | hv
    · exact h.1
    · exact ih h.2.1 hv

theorem nodup_sub {w v : Val} (h : Sub w v) (hn : (nodeIds v).Nodup) : (nodeIds w).Nodup := by
  induction h with
  | refl => exact hn
  | step hv _ ih =>
    simp only [nodeIds, List.nodup_cons] at hn
    exact ih (nodup_item hn.2 hv)

/-- An id occurs below one item only. -/
theorem item_unique {vs : List Val} (h : (nodeIdsL vs).Nodup) {v w : Val} (hv : v ∈ vs) (hw : w ∈ vs)
    {n : Nat} (h1 : n ∈ nodeIds v) (h2 : n ∈ nodeIds w) : v = w := by
  induction vs with
  | nil => cases hv
  | cons u us ih =>
    simp only [nodeIdsL, List.nodup_append] at h
    rcases List.mem_cons.1 hv with e | hv'
    · rcases List.mem_cons.1 hw with e' | hw'
      · rw [e, e']
      · exact absurd rfl (h.2.2 n (e ▸ h1) n (mem_nodeIdsL.2 ⟨w, hw', h2⟩))
    · rcases List.mem_cons.1 hw with e' | hw'
      · exact absurd rfl (h.2.2 n (e' ▸ h2) n (mem_nodeIdsL.2 ⟨v, hv', h1⟩))
      · exact ih h.2.1 hv' hw'

theorem sub_unique {v w w' : Val} (hn : (nodeIds v).Nodup) (h : Sub w v) (h' : Sub w' v)
    (he : w.id = w'.id) : w = w' := by
  induction h with
  | refl =>
    cases h' with
    | refl => rfl
    | step hx hs =>
      simp only [nodeIds, List.nodup_cons, Val.id] at hn he
      exact absurd (mem_nodeIdsL.2 ⟨_, hx, he ▸ hs.id_mem⟩) hn.1
  | step hx hs ih =>
    cases h' with
    | refl =>
      simp only [nodeIds, List.nodup_cons, Val.id] at hn he
      exact absurd (mem_nodeIdsL.2 ⟨_, hx, he ▸ hs.id_mem⟩) hn.1
    | step hy hs' =>
      simp only [nodeIds, List.nodup_cons] at hn
      have := item_unique hn.2 hx hy hs.id_mem (he ▸ hs'.id_mem)
      subst this
      exact ih (nodup_item hn.2 hx) hs'

theorem map_id_nodup {vs : List Val} (h : (nodeIdsL vs).Nodup) : (vs.map Val.id).Nodup := by
  induction vs with
  | nil => simp
  | cons v vs ih =>
    simp only [nodeIdsL, List.nodup_append] at h
    simp only [List.map_cons, List.nodup_cons]
    refine ⟨?_, ih h.2.1⟩
    intro hm
    obtain ⟨w, hw, e⟩ := List.mem_map.1 hm
    exact h.2.2 _ (id_mem_nodeIds v) _ (mem_nodeIdsL.2 ⟨w, hw, id_mem_nodeIds w⟩) e.symm

theorem indexOf_eq {vs : List Val} (h : (vs.map Val.id).Nodup) {i : Nat} {v : Val}
    (hi : vs[i]? = some v) : indexOf vs v.id = i := by
  induction vs generalizing i with
  | nil => simp at hi
  | cons w ws ih =>
    simp only [List.map_cons, List.nodup_cons] at h
    cases i with
    | zero =>
      simp only [List.getElem?_cons_zero, Option.some.injEq] at hi
      subst hi
      simp [indexOf, List.findIdx_cons]
    | succ i =>
      simp only [List.getElem?_cons_succ] at hi
      have hne : (w.id == v.id) = false := by
        simp only [beq_eq_false_iff_ne, ne_eq]
        intro e
        exact h.1 (e ▸ List.mem_map.2 ⟨v, List.mem_of_getElem? hi, rfl⟩)
      have := ih h.2 hi
      simp only [indexOf] at this ⊢
      simp [List.findIdx_cons, hne, this]

/-! ## Distances inside one list -/

/-- The distance between places `i` and `j` of a list of `n` values. -/
def gap (ty : LType) (st : Rat) (n i j : Nat) : Rat :=
  match ty with
  | .equidistant => st
  | .linear => (((max i j - min i j : Nat) : Int) : Rat) * st
  | .cyclic => (((min (max i j - min i j) (n - (max i j - min i j)) : Nat) : Int) : Rat) * st

theorem gap_symm (ty : LType) (st : Rat) (n i j : Nat) : gap ty st n i j = gap ty st n j i := by
  simp only [gap, Nat.max_comm i j, Nat.min_comm i j]

theorem gap_nonneg (ty : LType) {st : Rat} (h : 0 ≤ st) (n i j : Nat) : 0 ≤ gap ty st n i j := by
  unfold gap
  split
  · exact h
  · exact Rat.mul_nonneg (Rat.intCast_nonneg.2 (Int.natCast_nonneg _)) h
  · exact Rat.mul_nonneg (Rat.intCast_nonneg.2 (Int.natCast_nonneg _)) h

theorem any_id {vs : List Val} {i : Nat} {v : Val} (hi : vs[i]? = some v) :
    vs.any (fun x => x.id == v.id) = true :=
  List.any_eq_true.2 ⟨v, List.mem_of_getElem? hi, by simp⟩

theorem listDistance_eq (ty : LType) (st : Rat) {vs : List Val} (h : (vs.map Val.id).Nodup)
    {i j : Nat} {v w : Val} (hi : vs[i]? = some v) (hj : vs[j]? = some w) (hij : i < j) :
    listDistance ty st vs v.id w.id = gap ty st vs.length i j := by
  unfold listDistance
  simp only [any_id hi, any_id hj, indexOf_eq h hi, indexOf_eq h hj]
  have hmax : max i j = j := by omega
  have hmin : min i j = i := by omega
  have hjl : j < vs.length := by
    rcases List.getElem?_eq_some_iff.1 hj with ⟨h, _⟩
    exact h
  have e1 : (j : Int) - (i : Int) = ((j - i : Nat) : Int) := by omega
  have e2 : min ((j : Int) - (i : Int)) ((vs.length : Int) - ((j : Int) - (i : Int))) =
      ((min (j - i) (vs.length - (j - i)) : Nat) : Int) := by omega
  cases ty
  · simp [gap]
  · simp only [gap, hmax, hmin, e1]
    simp
  · simp only [gap, hmax, hmin, e2]
    simp

theorem triplesL_cross (ty : LType) (st : Rat) (all : List Val) :
    ∀ (vs : List Val) {i j : Nat} {v w : Val}, vs[i]? = some v → vs[j]? = some w → i < j →
      ∀ {a b : Feat}, a ∈ leaves v → b ∈ leaves w →
        (a, b, listDistance ty st all v.id w.id) ∈ triplesL ty st all vs := by
  intro vs
  induction vs with
  | nil => intro i j v w hi; simp at hi
  | cons u us ih =>
    intro i j v w hi hj hij a b ha hb
    simp only [triplesL, List.mem_append]
    cases i with
    | zero =>
      simp only [List.getElem?_cons_zero, Option.some.injEq] at hi
      subst hi
      obtain ⟨k, rfl⟩ : ∃ k, j = k + 1 := ⟨j - 1, by omega⟩
      simp only [List.getElem?_cons_succ] at hj
      refine .inl (.inr ?_)
      refine List.mem_flatMap.2 ⟨w, List.mem_of_getElem? hj, ?_⟩
      exact List.mem_flatMap.2 ⟨a, ha, List.mem_map.2 ⟨b, hb, rfl⟩⟩
    | succ i =>
      obtain ⟨k, rfl⟩ : ∃ k, j = k + 1 := ⟨j - 1, by omega⟩
      simp only [List.getElem?_cons_succ] at hi hj
      exact .inr (ih hi hj (by omega) ha hb)

theorem triplesL_item (ty : LType) (st : Rat) (all : List Val) {vs : List Val} {v : Val} (hv : v ∈ vs)
    {t : Triple} (ht : t ∈ triples v) : t ∈ triplesL ty st all vs := by
  induction vs with
  | nil => cases hv
  | cons u us ih =>
    simp only [triplesL, List.mem_append]
    rcases List.mem_cons.1 hv with rfl | hv
    · exact .inl (.inl ht)
    · exact .inr (ih hv)

theorem triples_sub {w v : Val} (h : Sub w v) {t : Triple} (ht : t ∈ triples w) : t ∈ triples v := by
  induction h with
  | refl => exact ht
  | step hv _ ih =>
    simp only [triples]
    exact triplesL_item _ _ _ hv ih

mutual
theorem triples_keys : ∀ (v : Val) {t : Triple}, t ∈ triples v → t.1 ∈ leaves v ∧ t.2.1 ∈ leaves v
  | .feat _, t, h => by simp [triples] at h
  | .list _ _ ty st items, t, h => by
    simp only [triples] at h
    simp only [leaves]
    exact triplesL_keys ty st items items h
theorem triplesL_keys (ty : LType) (st : Rat) (all : List Val) : ∀ (vs : List Val) {t : Triple},
    t ∈ triplesL ty st all vs → t.1 ∈ leavesL vs ∧ t.2.1 ∈ leavesL vs
  | [], t, h => by simp [triplesL] at h
  | v :: vs, t, h => by
    simp only [triplesL, List.mem_append] at h
    simp only [leavesL, List.mem_append]
    rcases h with (h | h) | h
    · exact ⟨.inl (triples_keys v h).1, .inl (triples_keys v h).2⟩
    · obtain ⟨w, hw, h⟩ := List.mem_flatMap.1 h
      obtain ⟨a, ha, h⟩ := List.mem_flatMap.1 h
      obtain ⟨b, hb, rfl⟩ := List.mem_map.1 h
      exact ⟨.inl ha, .inr (mem_leavesL hw hb)⟩
    · exact ⟨.inr (triplesL_keys ty st all vs h).1, .inr (triplesL_keys ty st all vs h).2⟩
end

/-- Each pair gets one distance. -/
def KeyU (T : List Triple) : Prop :=
  ∀ (a b : Feat) (d d' : Rat), (a, b, d) ∈ T → ((a, b, d') ∈ T ∨ (b, a, d') ∈ T) → d = d'

theorem mem_crossL {v : Val} {vs : List Val} {g : Val → Rat} {a b : Feat} {d : Rat} :
    (a, b, d) ∈ vs.flatMap (fun w => cross v w (g w)) ↔
      a ∈ leaves v ∧ ∃ w ∈ vs, b ∈ leaves w ∧ d = g w := by
  constructor
  · intro h
    obtain ⟨w, hw, h⟩ := List.mem_flatMap.1 h
    obtain ⟨a', ha, h⟩ := List.mem_flatMap.1 h
    obtain ⟨b', hb, h⟩ := List.mem_map.1 h
    simp only [Prod.mk.injEq] at h
    obtain ⟨rfl, rfl, rfl⟩ := h
    exact ⟨ha, w, hw, hb, rfl⟩
  · rintro ⟨ha, w, hw, hb, rfl⟩
    exact List.mem_flatMap.2 ⟨w, hw, List.mem_flatMap.2 ⟨a, ha, List.mem_map.2 ⟨b, hb, rfl⟩⟩⟩

mutual
theorem triples_keyU : ∀ (v : Val), (nodeIds v).Nodup → KeyU (triples v)
  | .feat _, _ => by intro a b d d' h; simp [triples] at h
  | .list _ _ ty st items, h => by
    simp only [nodeIds, List.nodup_cons] at h
    simp only [triples]
    exact triplesL_keyU ty st items items h.2
theorem triplesL_keyU (ty : LType) (st : Rat) (all : List Val) : ∀ (vs : List Val),
    (nodeIdsL vs).Nodup → KeyU (triplesL ty st all vs)
  | [], _ => by intro a b d d' h; simp [triplesL] at h
  | v :: vs, hn => by
    have hn' := hn
    simp only [nodeIdsL, List.nodup_append] at hn'
    have hdis : ∀ f, f ∈ leaves v → f ∈ leavesL vs → False := fun f h1 h2 =>
      hn'.2.2 _ (leaf_id_mem v h1) _ (leaf_id_memL vs h2) rfl
    have ihv := triples_keyU v hn'.1
    have ihs := triplesL_keyU ty st all vs hn'.2.1
    have k1 : ∀ {t : Triple}, t ∈ triples v → t.1 ∈ leaves v ∧ t.2.1 ∈ leaves v := triples_keys v
    have k3 : ∀ {t : Triple}, t ∈ triplesL ty st all vs → t.1 ∈ leavesL vs ∧ t.2.1 ∈ leavesL vs :=
      triplesL_keys ty st all vs
    have k2 : ∀ {a b : Feat} {d : Rat},
        (a, b, d) ∈ vs.flatMap (fun w => cross v w (listDistance ty st all v.id w.id)) →
        a ∈ leaves v ∧ b ∈ leavesL vs := by
      intro a b d h
      obtain ⟨ha, w, hw, hb, _⟩ := mem_crossL.1 h
      exact ⟨ha, mem_leavesL hw hb⟩
    intro a b d d' h h'
    simp only [triplesL, List.mem_append] at h h'
    rcases h with (h | h) | h
    · have ha := (k1 h).1
      have hb := (k1 h).2
      rcases h' with ((h' | h') | h') | ((h' | h') | h')
      · exact ihv a b d d' h (.inl h')
      · exact (hdis _ hb (k2 h').2).elim
      · exact (hdis _ ha (k3 h').1).elim
      · exact ihv a b d d' h (.inr h')
      · exact (hdis _ ha (k2 h').2).elim
      · exact (hdis _ ha (k3 h').2).elim
    · have ha := (k2 h).1
      have hb := (k2 h).2
      rcases h' with ((h' | h') | h') | ((h' | h') | h')
      · exact (hdis _ (k1 h').2 hb).elim
      · obtain ⟨_, w, hw, hbw, rfl⟩ := mem_crossL.1 h
        obtain ⟨_, w', hw', hbw', rfl⟩ := mem_crossL.1 h'
        rw [item_unique hn'.2.1 hw hw' (leaf_id_mem w hbw) (leaf_id_mem w' hbw')]
      · exact (hdis _ ha (k3 h').1).elim
      · exact (hdis _ (k1 h').1 hb).elim
      · exact (hdis _ ha (k2 h').2).elim
      · exact (hdis _ ha (k3 h').2).elim
    · have ha := (k3 h).1
      have hb := (k3 h).2
      rcases h' with ((h' | h') | h') | ((h' | h') | h')
      · exact (hdis _ (k1 h').1 ha).elim
      · exact (hdis _ (k2 h').1 ha).elim
      · exact ihs a b d d' h (.inl h')
      · exact (hdis _ (k1 h').2 ha).elim
      · exact (hdis _ (k2 h').1 hb).elim
      · exact ihs a b d d' h (.inr h')
end

mutual
theorem triples_ne : ∀ (v : Val), (nodeIds v).Nodup → ∀ {a b : Feat} {d : Rat},
    (a, b, d) ∈ triples v → a ≠ b
  | .feat _, _, a, b, d, h => by simp [triples] at h
  | .list _ _ ty st items, hn, a, b, d, h => by
    simp only [nodeIds, List.nodup_cons] at hn
    simp only [triples] at h
    exact triplesL_ne ty st items items hn.2 h
theorem triplesL_ne (ty : LType) (st : Rat) (all : List Val) : ∀ (vs : List Val),
    (nodeIdsL vs).Nodup → ∀ {a b : Feat} {d : Rat}, (a, b, d) ∈ triplesL ty st all vs → a ≠ b
  | [], _, a, b, d, h => by simp [triplesL] at h
  | v :: vs, hn, a, b, d, h => by
    simp only [nodeIdsL, List.nodup_append] at hn
    simp only [triplesL, List.mem_append] at h
    rcases h with (h | h) | h
    · exact triples_ne v hn.1 h
    · obtain ⟨ha, w, hw, hb, _⟩ := mem_crossL.1 h
      rintro rfl
      exact hn.2.2 _ (leaf_id_mem v ha) _ (leaf_id_memL vs (mem_leavesL hw hb)) rfl
    · exact triplesL_ne ty st all vs hn.2.1 h
end

theorem foldl_upd_some {U K} (hU : UOk U K) (T : List Triple)
    (hT : ∀ t ∈ T, t.1 ∈ U ∧ t.2.1 ∈ U) {a b : Feat} (ha : a ∈ U) (hb : b ∈ U) {d : Rat}
    (hall : ∀ d', (a, b, d') ∈ T ∨ (b, a, d') ∈ T → d' = d) :
    ∀ (G : Nat → Nat → Option Rat), (G a.id b.id = some d ∨ (a, b, d) ∈ T ∨ (b, a, d) ∈ T) →
      T.foldl upd G a.id b.id = some d := by
  induction T with
  | nil => intro G h; simpa using h
  | cons t T ih =>
    intro G h
    have iht := ih (fun t ht => hT t (by simp [ht]))
      (fun d' h => hall d' (h.imp (fun h => by simp [h]) (fun h => by simp [h])))
    simp only [List.foldl_cons]
    apply iht
    obtain ⟨x, y, e⟩ := t
    have hx := (hT (x, y, e) (by simp)).1
    have hy := (hT (x, y, e) (by simp)).2
    simp only at hx hy
    by_cases hk : (a.id = x.id ∧ b.id = y.id) ∨ (a.id = y.id ∧ b.id = x.id)
    · refine .inl ?_
      simp only [upd, if_pos hk, Option.some.injEq]
      apply hall
      rcases hk with ⟨h1, h2⟩ | ⟨h1, h2⟩
      · exact .inl (by rw [hU.id a ha x hx h1, hU.id b hb y hy h2]; simp)
      · exact .inr (by rw [hU.id a ha y hy h1, hU.id b hb x hx h2]; simp)
    · simp only [upd, if_neg hk]
      rcases h with h | h | h
      · exact .inl h
      · rcases List.mem_cons.1 h with h | h
        · simp only [Prod.mk.injEq] at h
          exact absurd (.inl ⟨by rw [h.1], by rw [h.2.1]⟩) hk
        · exact .inr (.inl h)
      · rcases List.mem_cons.1 h with h | h
        · simp only [Prod.mk.injEq] at h
          exact absurd (.inr ⟨by rw [h.2.1], by rw [h.1]⟩) hk
        · exact .inr (.inr h)

theorem maxFold_ge (T : List Triple) : ∀ m : Rat, m ≤ T.foldl maxStep m ∧
    ∀ t ∈ T, t.2.2 ≤ T.foldl maxStep m := by
  induction T with
  | nil => intro m; exact ⟨Rat.le_refl, by simp⟩
  | cons t T ih =>
    intro m
    simp only [List.foldl_cons]
    obtain ⟨h1, h2⟩ := ih (maxStep m t)
    have h3 : m ≤ maxStep m t ∧ t.2.2 ≤ maxStep m t := by
      unfold maxStep; split <;> grind
    refine ⟨Rat.le_trans h3.1 h1, ?_⟩
    intro t' ht'
    rcases List.mem_cons.1 ht' with rfl | ht'
    · exact Rat.le_trans h3.2 h1
    · exact h2 t' ht'

theorem maxFold_attained (T : List Triple) : ∀ m : Rat, T.foldl maxStep m = m ∨
    ∃ t ∈ T, T.foldl maxStep m = t.2.2 := by
  induction T with
  | nil => intro m; exact .inl rfl
  | cons t T ih =>
    intro m
    simp only [List.foldl_cons]
    rcases ih (maxStep m t) with h | ⟨t', ht', h⟩
    · rw [h]
      unfold maxStep
      split
      · exact .inr ⟨t, by simp, rfl⟩
      · exact .inl rfl
    · exact .inr ⟨t', by simp [ht'], h⟩

/-- Two different features of a tree are below two different items of one of its lists. -/
theorem exists_split : ∀ (v : Val) {a b : Feat}, a ∈ leaves v → b ∈ leaves v → a ≠ b →
    ∃ id al ty st items, Sub (.list id al ty st items) v ∧ ∃ (i j : Nat) (x y : Val), i ≠ j ∧ items[i]? = some x ∧
      items[j]? = some y ∧ a ∈ leaves x ∧ b ∈ leaves y
  | .feat f, a, b, ha, hb, hne => by
    simp only [leaves, List.mem_singleton] at ha hb
    exact absurd (ha.trans hb.symm) hne
  | .list id al ty st items, a, b, ha, hb, hne => by
    simp only [leaves] at ha hb
    obtain ⟨x, hx, ha⟩ := mem_leavesL_iff.1 ha
    obtain ⟨y, hy, hb⟩ := mem_leavesL_iff.1 hb
    obtain ⟨i, hi⟩ := List.mem_iff_getElem?.1 hx
    obtain ⟨j, hj⟩ := List.mem_iff_getElem?.1 hy
    by_cases hij : i = j
    · subst hij
      have : x = y := by rw [hi] at hj; exact Option.some.inj hj
      subst this
      obtain ⟨id', al', ty', st', items', hs, r⟩ := exists_split x ha hb hne
      exact ⟨id', al', ty', st', items', .step hx hs, r⟩
    · exact ⟨id, al, ty, st, items, .refl _, i, j, x, y, hij, hi, hj, ha, hb⟩
termination_by v => sizeOf v
decreasing_by
  have := List.sizeOf_lt_of_mem hx
  simp only [Val.list.sizeOf_spec]
  omega

/-! ## Parents -/

theorem addFeature_parents (A : Aspect) (f : Feat) : (A.addFeature f).parents = A.parents := by
  simp only [Aspect.addFeature, Aspect.addItem]
  repeat' split
  all_goals rfl

theorem finish_parents (C : Aspect) (f g : Feat) (d : Rat) :
    (finish C f g d).parents = C.parents := by
  unfold finish
  split <;> rfl

theorem featStep_parents (f : Feat) (d : Rat) (g : Feat) (A : Aspect) :
    (featStep f d A g).parents = A.parents := by
  have e : ∀ (A : Aspect) (f : Feat),
      (if A.members.contains f.id then A else A.addFeature f).parents = A.parents := by
    intro A f
    split
    · rfl
    · exact addFeature_parents A f
  unfold featStep
  split
  · rw [addDistance_def A f g d _ _ rfl rfl]
    have h := (e (if A.members.contains f.id then A else A.addFeature f) g).trans (e A f)
    exact (finish_parents _ _ _ _).trans h
  · rfl

theorem addDistanceVal_parents (w : Val) (d : Rat) (v : Val) (A : Aspect) :
    (addDistanceVal w d v A).parents = A.parents := by
  rw [addDistanceVal_eq]
  generalize leaves v = fs
  generalize leaves w = ws
  have h : ∀ (f : Feat) (ws : List Feat) (A : Aspect),
      (ws.foldl (featStep f d) A).parents = A.parents := by
    intro f ws
    induction ws with
    | nil => intro A; rfl
    | cons w ws ih => intro A; rw [List.foldl_cons, ih, featStep_parents]
  induction fs generalizing A with
  | nil => rfl
  | cons f fs ih => rw [List.foldl_cons, ih, h]

theorem rest_parents (dist : Val → Rat) (item : Val) : ∀ (rest : List Val) (A : Aspect),
    (rest.foldl (fun A w => addDistanceVal w (dist w) item A) A).parents = A.parents
  | [], A => rfl
  | w :: ws, A => by rw [List.foldl_cons, rest_parents, addDistanceVal_parents]

theorem addSuppl_parents (A : Aspect) (al : String) (v : Field) :
    (A.addSuppl al v).parents = A.parents := by
  unfold Aspect.addSuppl
  split <;> rfl

mutual
theorem populateVal_parents_other : ∀ (v : Val) (A : Aspect) (n : Nat),
    (∀ id al ty st items, v = .list id al ty st items → n ∉ nodeIdsL items) →
    (populateVal v A).parents n = A.parents n
  | .feat f, A, n, _ => by
    simp only [populateVal]
    split
    · rfl
    · rw [addFeature_parents]
  | .list id al ty st items, A, n, h => by
    simp only [populateVal]
    rw [populateItems_parents_other id ty st items items _ n (h _ _ _ _ _ rfl), addSuppl_parents]
theorem populateItems_parents_other (id : Nat) (ty : LType) (st : Rat) (all : List Val) :
    ∀ (vs : List Val) (A : Aspect) (n : Nat), n ∉ nodeIdsL vs →
      (populateItems id ty st all vs A).parents n = A.parents n
  | [], A, n, _ => by simp [populateItems]
  | v :: vs, A, n, h => by
    simp only [nodeIdsL, List.mem_append, not_or] at h
    simp only [populateItems]
    rw [populateItems_parents_other id ty st all vs _ n h.2, rest_parents,
      populateVal_parents_other v _ n ?_]
    · simp only [Aspect.setParent]
      rw [if_neg]
      rintro rfl
      exact h.1 (id_mem_nodeIds v)
    · rintro id' al' ty' st' items' rfl
      simp only [nodeIds, List.mem_cons, not_or] at h
      exact h.1.2
end

mutual
theorem populateVal_parents : ∀ (v : Val) (A : Aspect), (nodeIds v).Nodup →
    ∀ {id al ty st items}, Sub (.list id al ty st items) v → ∀ w ∈ items,
      (populateVal v A).parents w.id = id :: (populateVal v A).parents id
  | .feat f, A, _, id, al, ty, st, items, hs, w, hw => by cases hs
  | .list id' al' ty' st' items', A, hn, id, al, ty, st, items, hs, w, hw => by
    simp only [nodeIds, List.nodup_cons] at hn
    simp only [populateVal]
    obtain ⟨h1, h2⟩ := populateItems_parents id' ty' st' items' items'
      (A.addSuppl al' (.valueList id')) hn.2 hn.1
    cases hs with
    | refl =>
      rw [h1 w hw, populateItems_parents_other _ _ _ _ _ _ _ hn.1]
    | step hx hs => exact h2 _ hx hs w hw
theorem populateItems_parents (id' : Nat) (ty' : LType) (st' : Rat) (all : List Val) :
    ∀ (vs : List Val) (A : Aspect), (nodeIdsL vs).Nodup → id' ∉ nodeIdsL vs →
      (∀ w ∈ vs, (populateItems id' ty' st' all vs A).parents w.id = id' :: A.parents id') ∧
      ∀ x ∈ vs, ∀ {id al ty st items}, Sub (.list id al ty st items) x → ∀ w ∈ items,
        (populateItems id' ty' st' all vs A).parents w.id =
          id :: (populateItems id' ty' st' all vs A).parents id
  | [], A, _, _ => by simp
  | v :: vs, A, hn, hid => by
    simp only [nodeIdsL, List.nodup_append] at hn
    simp only [nodeIdsL, List.mem_append, not_or] at hid
    have hdis : ∀ n, n ∈ nodeIds v → n ∉ nodeIdsL vs := fun n h1 h2 => hn.2.2 n h1 n h2 rfl
    simp only [populateItems]
    generalize hB : populateVal v (A.setParent v.id id') = B
    have hBC := rest_parents (fun w => listDistance ty' st' all v.id w.id) v vs B
    generalize hC : vs.foldl
      (fun A w => addDistanceVal w (listDistance ty' st' all v.id w.id) v A) B = C at *
    have hoth := populateItems_parents_other id' ty' st' all vs C
    obtain ⟨h1, h2⟩ := populateItems_parents id' ty' st' all vs C hn.2.1 hid.2
    have hvid : v.id ≠ id' := fun e => hid.1 (e ▸ id_mem_nodeIds v)
    have hBid : B.parents id' = A.parents id' := by
      rw [← hB, populateVal_parents_other v _ id' ?_]
      · simp only [Aspect.setParent, if_neg (Ne.symm hvid)]
      · rintro i a t s its rfl
        simp only [nodeIds, List.mem_cons, not_or] at hid
        exact hid.1.2
    have hBv : B.parents v.id = id' :: A.parents id' := by
      rw [← hB, populateVal_parents_other v _ v.id ?_]
      · simp [Aspect.setParent]
      · rintro i a t s its rfl
        simp only [nodeIds, List.nodup_cons] at hn
        exact hn.1.1
    refine ⟨?_, ?_⟩
    · intro w hw
      rcases List.mem_cons.1 hw with rfl | hw
      · rw [hoth _ (hdis _ (id_mem_nodeIds w)), hBC, hBv]
      · rw [h1 w hw, hBC, hBid]
    · intro x hx id al ty st items hs w hw
      rcases List.mem_cons.1 hx with e | hx
      · rw [e] at hs
        have := populateVal_parents v (A.setParent v.id id') hn.1 hs w hw
        rw [hB] at this
        have e1 : Sub w v := Sub.trans (.step hw (.refl _)) hs
        rw [hoth _ (hdis _ e1.id_mem), hoth id (hdis _ hs.id_mem), hBC, this]
      · exact h2 x hx hs w hw
end

end Nisaba.Feature
