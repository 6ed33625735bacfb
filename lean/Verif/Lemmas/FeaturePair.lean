import Verif.Model.FeaturePair
/-!
# Lemmas on feature pairs
-/
namespace Nisaba.Pair
open Nisaba.Inv

theorem isCtrl_iff {s : Nat} : isCtrl s = true ↔ s < 7 := by simp [isCtrl]

theorem Obj.get_cons (o : Obj) (n m : String) (v : Attr) :
    Obj.get { o with attrs := (n, v) :: o.attrs } m = if m = n then some v else o.get m := by
  unfold Obj.get
  by_cases h : m = n
  · subst h; simp
  · have : (n == m) = false := by simp [Ne.symm h]
    simp [this, h]

theorem setAttr_length (w : Syms) (s : Nat) (n : String) (v : Attr) :
    (setAttr w s n v).length = w.length := by
  unfold setAttr
  split <;> simp

theorem get_setAttr {w : Syms} {s : Nat} (hs : s < w.length) (n : String) (v : Attr) (s' : Nat)
    (m : String) :
    get (setAttr w s n v) s' m = if s' = s ∧ m = n then some v else get w s' m := by
  unfold setAttr
  rw [List.getElem?_eq_getElem hs]
  simp only [get]
  by_cases h : s' = s
  · subst h
    rw [List.getElem?_set_self hs, List.getElem?_eq_getElem hs]
    simp only [true_and]
    rw [Obj.get_cons]
  · rw [List.getElem?_set_ne (Ne.symm h)]
    simp [h]

/-- The features given to `add_features` of a symbol. -/
def added (w : Syms) (s : Nat) : List Nat :=
  match w[s]? with
  | some o => o.added
  | none => []

/-- The alias of a symbol. -/
def aliasOf (w : Syms) (s : Nat) : Option String := (w[s]?).map (·.alias)

theorem added_setAttr (w : Syms) (s : Nat) (n : String) (v : Attr) (s' : Nat) :
    added (setAttr w s n v) s' = added w s' := by
  unfold setAttr
  split
  · next o ho =>
    unfold added
    by_cases h : s' = s
    · subst h
      rw [List.getElem?_set_self (List.getElem?_eq_some_iff.1 ho).1, ho]
    · rw [List.getElem?_set_ne (Ne.symm h)]
  · rfl

theorem alias_setAttr (w : Syms) (s : Nat) (n : String) (v : Attr) (s' : Nat) :
    aliasOf (setAttr w s n v) s' = aliasOf w s' := by
  unfold setAttr
  split
  · next o ho =>
    unfold aliasOf
    by_cases h : s' = s
    · subst h
      rw [List.getElem?_set_self (List.getElem?_eq_some_iff.1 ho).1, ho]; rfl
    · rw [List.getElem?_set_ne (Ne.symm h)]
  · rfl

/-- Names that the methods need. -/
def needed : List String := ["set_attribute", "is_control", "add_features"]

/-- No attribute hides a method that is called, and the field `features` is intact. -/
structure Clear (w : Syms) : Prop where
  methods : ∀ s, ∀ m ∈ needed, get w s m = none
  features : ∀ s, s < w.length → get w s "features" = some .own

/-- What one call of `set_attribute` does. -/
structure Eff (w w' : Syms) (s : Nat) (n : String) (v : Attr) (fs : List Nat) : Prop where
  length : w'.length = w.length
  get : ∀ s' m, get w' s' m = if s' = s ∧ isCtrl s = false ∧ m = n then some v else Pair.get w s' m
  added : ∀ s', added w' s' =
    if s' = s ∧ isCtrl s = false then Pair.added w s' ++ fs else Pair.added w s'
  alias : ∀ s', aliasOf w' s' = aliasOf w s'
  clear : Clear w'

theorem callable_ok {w : Syms} (hw : Clear w) (s : Nat) {m : String} (hm : m ∈ needed) :
    callable w s m = .ok () := by
  unfold callable
  rw [hw.methods s m hm]

theorem isControl_ok {w : Syms} (hw : Clear w) (s : Nat) : isControl w s = .ok (isCtrl s) := by
  unfold isControl
  rw [callable_ok hw s (by decide)]

theorem clear_setAttr {w : Syms} (hw : Clear w) {s : Nat} (hs : s < w.length) {n : String}
    (hn : n ∉ "features" :: needed) (v : Attr) : Clear (setAttr w s n v) := by
  constructor
  · intro s' m hm
    rw [get_setAttr hs, if_neg, hw.methods s' m hm]
    rintro ⟨_, rfl⟩
    exact hn (List.mem_cons_of_mem _ hm)
  · intro s' hs'
    rw [setAttr_length] at hs'
    rw [get_setAttr hs, if_neg, hw.features s' hs']
    rintro ⟨_, rfl⟩
    exact hn (List.mem_cons_self ..)

theorem addFeatures_eff {w : Syms} (hw : Clear w) {s : Nat} (hs : s < w.length) (fs : List Nat) :
    ∃ w', addFeatures w s fs = (w', .ok ()) ∧ w'.length = w.length ∧
      (∀ s' m, get w' s' m = get w s' m) ∧
      (∀ s', added w' s' = if s' = s then added w s' ++ fs else added w s') ∧
      (∀ s', aliasOf w' s' = aliasOf w s') ∧ Clear w' := by
  unfold addFeatures
  rw [callable_ok hw s (by decide)]
  simp only
  by_cases hf : fs.isEmpty = true
  · rw [if_pos hf]
    refine ⟨w, rfl, rfl, fun _ _ => rfl, ?_, fun _ => rfl, hw⟩
    rw [List.isEmpty_iff] at hf
    subst hf
    intro s'; simp
  · rw [if_neg hf, if_pos (hw.features s hs), List.getElem?_eq_getElem hs]
    simp only
    have hg : ∀ s' m, get (w.set s { w[s] with added := w[s].added ++ fs }) s' m = get w s' m := by
      intro s' m
      unfold get
      by_cases h : s' = s
      · subst h
        rw [List.getElem?_set_self hs, List.getElem?_eq_getElem hs]; rfl
      · rw [List.getElem?_set_ne (Ne.symm h)]
    refine ⟨_, rfl, by simp, hg, ?_, ?_, ?_⟩
    · intro s'
      unfold added
      by_cases h : s' = s
      · subst h
        rw [List.getElem?_set_self hs, List.getElem?_eq_getElem hs]; simp
      · rw [List.getElem?_set_ne (Ne.symm h), if_neg h]
    · intro s'
      unfold aliasOf
      by_cases h : s' = s
      · subst h
        rw [List.getElem?_set_self hs, List.getElem?_eq_getElem hs]; rfl
      · rw [List.getElem?_set_ne (Ne.symm h)]
    · constructor
      · intro s' m hm; rw [hg]; exact hw.methods s' m hm
      · intro s' hs'; rw [hg]; exact hw.features s' (by simpa using hs')

theorem setAttribute_eff {w : Syms} (hw : Clear w) {s : Nat} (hs : s < w.length) {n : String}
    (hn : n ∉ "features" :: needed) (v : Attr) (fs : List Nat) :
    ∃ w', setAttribute w s n v fs = (w', .ok ()) ∧ Eff w w' s n v fs := by
  unfold setAttribute
  rw [callable_ok hw s (by decide), isControl_ok hw]
  cases hc : isCtrl s with
  | true =>
    refine ⟨w, rfl, rfl, ?_, ?_, fun _ => rfl, hw⟩ <;> intros <;> simp [hc]
  | false =>
    simp only
    have hs' : s < (setAttr w s n v).length := by rw [setAttr_length]; exact hs
    obtain ⟨w', e, hl, hg, ha, hal, hcl⟩ := addFeatures_eff (clear_setAttr hw hs hn v) hs' fs
    refine ⟨w', e, hl.trans (setAttr_length ..), ?_, ?_, ?_, hcl⟩
    · intro s' m
      rw [hg, get_setAttr hs]
      simp [hc]
    · intro s'
      rw [ha, added_setAttr]
      simp [hc]
    · intro s'
      rw [hal, alias_setAttr]

theorem setPair_eff {w : Syms} (hw : Clear w) {s : Nat} (hs : s < w.length) {n : String}
    (hn : n ∉ "features" :: needed) (other : Nat) (fs : List Nat) :
    ∃ w', setPair w s n other fs = (w', .ok ()) ∧
      Eff w w' s n (.sym (if isCtrl other then nos else other)) fs := by
  unfold setPair orNos
  rw [isControl_ok hw]
  exact setAttribute_eff hw hs hn _ fs

/-- The names of a call are no names that the methods need. -/
structure NamesOk (f t : Ftr) (addAspect : Bool) : Prop where
  hf : f.text ∉ "features" :: needed
  ht : t.text ∉ "features" :: needed
  hfa : addAspect = true → f.aspect ∉ "features" :: needed
  hta : addAspect = true → t.aspect ∉ "features" :: needed

/-- What one call of `feature_pair` does. -/
structure PairEff (w w' : Syms) (x y : Nat) (f t : Ftr) (addAspect addFeats : Bool) : Prop where
  length : w'.length = w.length
  get : ∀ s m, get w' s m =
    if addAspect = true ∧ s = y ∧ isCtrl y = false ∧ m = t.aspect then some (.feat t.id)
    else if addAspect = true ∧ s = x ∧ isCtrl x = false ∧ m = f.aspect then some (.feat f.id)
    else if s = y ∧ isCtrl y = false ∧ m = f.text then some (.sym (if isCtrl x then nos else x))
    else if s = x ∧ isCtrl x = false ∧ m = t.text then some (.sym (if isCtrl y then nos else y))
    else if s = y ∧ isCtrl y = false ∧ m = t.text then some (.sym y)
    else if s = x ∧ isCtrl x = false ∧ m = f.text then some (.sym x)
    else Pair.get w s m
  added : ∀ s, Pair.added w' s = Pair.added w s ++
    (if addFeats = true ∧ s = x ∧ isCtrl x = false then [f.id] else []) ++
    (if addFeats = true ∧ s = y ∧ isCtrl y = false then [t.id] else [])
  alias : ∀ s, aliasOf w' s = aliasOf w s
  clear : Clear w'

theorem featurePair_eff {w : Syms} (hw : Clear w) {x y : Nat} (hx : x < w.length) (hy : y < w.length)
    {f t : Ftr} {addAspect : Bool} (hn : NamesOk f t addAspect) (addFeats : Bool) :
    ∃ w', featurePair w x y f t addAspect addFeats = (w', .ok ()) ∧
      PairEff w w' x y f t addAspect addFeats := by
  unfold featurePair
  obtain ⟨w1, e1, h1⟩ := setAttribute_eff hw hx hn.hf (.sym x) []
  rw [e1]; simp only [andThen]
  obtain ⟨w2, e2, h2⟩ := setAttribute_eff h1.clear (s := y) (by rw [h1.length]; exact hy) hn.ht
    (.sym y) []
  rw [e2]; simp only
  have hl2 : w2.length = w.length := by rw [h2.length, h1.length]
  obtain ⟨w3, e3, h3⟩ := setPair_eff h2.clear (s := x) (by omega) hn.ht y
    (if addFeats then [f.id] else [])
  rw [e3]; simp only
  obtain ⟨w4, e4, h4⟩ := setPair_eff h3.clear (s := y) (by rw [h3.length]; omega) hn.hf x
    (if addFeats then [t.id] else [])
  rw [e4]; simp only
  have hl4 : w4.length = w.length := by rw [h4.length, h3.length]; exact hl2
  have hadd4 : ∀ s, added w4 s = added w s ++
      (if addFeats = true ∧ s = x ∧ isCtrl x = false then [f.id] else []) ++
      (if addFeats = true ∧ s = y ∧ isCtrl y = false then [t.id] else []) := by
    intro s
    rw [h4.added, h3.added, h2.added, h1.added]
    cases addFeats <;> by_cases a1 : s = x <;> by_cases a2 : s = y <;> cases c1 : isCtrl x <;>
      cases c2 : isCtrl y <;> simp_all
  have hal4 : ∀ s, aliasOf w4 s = aliasOf w s := by
    intro s; rw [h4.alias, h3.alias, h2.alias, h1.alias]
  cases addAspect with
  | false =>
    refine ⟨w4, rfl, hl4, ?_, hadd4, hal4, h4.clear⟩
    intro s m
    rw [h4.get, h3.get, h2.get, h1.get]
    simp
  | true =>
    simp only [if_true]
    obtain ⟨w5, e5, h5⟩ := setAttribute_eff h4.clear (s := x) (by omega) (hn.hfa rfl) (.feat f.id) []
    rw [e5]; simp only
    obtain ⟨w6, e6, h6⟩ := setAttribute_eff h5.clear (s := y) (by rw [h5.length]; omega) (hn.hta rfl)
      (.feat t.id) []
    refine ⟨w6, e6, by rw [h6.length, h5.length, hl4], ?_, ?_, ?_, h6.clear⟩
    · intro s m
      rw [h6.get, h5.get, h4.get, h3.get, h2.get, h1.get]
      simp
    · intro s
      rw [h6.added, h5.added, hadd4]
      simp
    · intro s; rw [h6.alias, h5.alias, hal4]

theorem get_new (a : String) (fs : List Nat) (m : String) :
    (Obj.new a fs).get m = if m ∈ symbolFields then some .own else none := by
  unfold Obj.get Obj.new
  induction symbolFields with
  | nil => rfl
  | cons k ks ih =>
    simp only [List.map_cons, List.find?_cons]
    by_cases h : k = m
    · subst h; simp
    · have : (k == m) = false := by simp [h]
      rw [this, ih]
      have : m ≠ k := Ne.symm h
      simp [this]

theorem clear_of_new {w : Syms} (h : ∀ o ∈ w, ∃ a fs, o = Obj.new a fs) : Clear w := by
  constructor
  · intro s m hm
    unfold get
    split
    · next o ho =>
      obtain ⟨a, fs, rfl⟩ := h o (List.mem_of_getElem? ho)
      rw [get_new, if_neg]
      revert m; decide
    · rfl
  · intro s hs
    unfold get
    rw [List.getElem?_eq_getElem hs]
    obtain ⟨a, fs, e⟩ := h w[s] (List.getElem_mem hs)
    simp only [e]
    rw [get_new, if_pos (by decide)]

theorem start_new (as : List (String × List Nat)) : ∀ o ∈ start as, ∃ a fs, o = Obj.new a fs := by
  intro o ho
  unfold start ctrl at ho
  rw [List.mem_append] at ho
  rcases ho with h | h
  · obtain ⟨a, _, rfl⟩ := List.mem_map.1 h; exact ⟨_, _, rfl⟩
  · obtain ⟨p, _, rfl⟩ := List.mem_map.1 h; exact ⟨_, _, rfl⟩

theorem step_eff {w : Syms} (hw : Clear w) {c : Call} (hn : NamesOk c.f c.t c.addAspect)
    (hx : c.x < w.length) (hy : c.y < w.length) :
    PairEff w (step w c) c.x c.y c.f c.t c.addAspect c.addFeats := by
  obtain ⟨w', e, h⟩ := featurePair_eff hw hx hy hn c.addFeats
  unfold step
  rw [if_pos ⟨hx, hy⟩, e]
  exact h

theorem step_clear {w : Syms} (hw : Clear w) {c : Call} (hn : NamesOk c.f c.t c.addAspect) :
    Clear (step w c) ∧ (step w c).length = w.length := by
  by_cases h : c.x < w.length ∧ c.y < w.length
  · exact ⟨(step_eff hw hn h.1 h.2).clear, (step_eff hw hn h.1 h.2).length⟩
  · unfold step; rw [if_neg h]; exact ⟨hw, rfl⟩

theorem run_clear {cs : List Call} (hn : ∀ c ∈ cs, NamesOk c.f c.t c.addAspect) :
    ∀ {w : Syms}, Clear w → Clear (run w cs) ∧ (run w cs).length = w.length := by
  induction cs with
  | nil => intro w hw; exact ⟨hw, rfl⟩
  | cons c cs ih =>
    intro w hw
    have h := step_clear hw (hn c (List.mem_cons_self ..))
    have := ih (fun c hc => hn c (List.mem_cons_of_mem _ hc)) h.1
    exact ⟨this.1, this.2.trans h.2⟩

theorem run_append (w : Syms) (cs ds : List Call) : run w (cs ++ ds) = run (run w cs) ds :=
  List.foldl_append ..

/-! ## Control symbols -/

theorem setAttr_other {w : Syms} {s s' : Nat} (h : s' ≠ s) (n : String) (v : Attr) :
    (setAttr w s n v)[s']? = w[s']? := by
  unfold setAttr
  split
  · exact List.getElem?_set_ne (Ne.symm h)
  · rfl

theorem addFeatures_other {w : Syms} {s s' : Nat} (h : s' ≠ s) (fs : List Nat) :
    (addFeatures w s fs).1[s']? = w[s']? := by
  unfold addFeatures
  split
  · rfl
  · split
    · rfl
    · split
      · split
        · exact List.getElem?_set_ne (Ne.symm h)
        · rfl
      · rfl

theorem setAttribute_other {w : Syms} {s s' : Nat} (h : s' ≠ s ∨ isCtrl s' = true) (n : String)
    (v : Attr) (fs : List Nat) : (setAttribute w s n v fs).1[s']? = w[s']? := by
  unfold setAttribute
  split
  · rfl
  · split
    · rfl
    · rfl
    · next hc =>
      have hne : s' ≠ s := by
        rcases h with h | h
        · exact h
        · rintro rfl
          unfold isControl at hc
          split at hc
          · cases hc
          · rw [h] at hc; cases hc
      rw [addFeatures_other hne, setAttr_other hne]

theorem setPair_other {w : Syms} {s s' : Nat} (h : s' ≠ s ∨ isCtrl s' = true) (n : String)
    (o : Nat) (fs : List Nat) : (setPair w s n o fs).1[s']? = w[s']? := by
  unfold setPair
  split
  · rfl
  · exact setAttribute_other h ..

theorem andThen_other {r : Syms × Except Err Unit} {k : Syms → Syms × Except Err Unit} {w : Syms}
    {s : Nat} (h1 : r.1[s]? = w[s]?) (h2 : ∀ v, (k v).1[s]? = v[s]?) :
    (andThen r k).1[s]? = w[s]? := by
  unfold andThen
  split
  · rw [h2]; exact h1
  · exact h1

theorem featurePair_other {w : Syms} {x y s : Nat} (h : (s ≠ x ∧ s ≠ y) ∨ isCtrl s = true)
    (f t : Ftr) (a b : Bool) : (featurePair w x y f t a b).1[s]? = w[s]? := by
  have hx : s ≠ x ∨ isCtrl s = true := h.imp (·.1) id
  have hy : s ≠ y ∨ isCtrl s = true := h.imp (·.2) id
  unfold featurePair
  refine andThen_other (setAttribute_other hx ..) fun v => ?_
  refine andThen_other (setAttribute_other hy ..) fun v => ?_
  refine andThen_other (setPair_other hx ..) fun v => ?_
  refine andThen_other (setPair_other hy ..) fun v => ?_
  split
  · refine andThen_other (setAttribute_other hx ..) fun v => ?_
    exact setAttribute_other hy ..
  · rfl

theorem step_other {w : Syms} {c : Call} {s : Nat} (h : (s ≠ c.x ∧ s ≠ c.y) ∨ isCtrl s = true) :
    (step w c)[s]? = w[s]? := by
  unfold step
  split
  · exact featurePair_other h ..
  · rfl

end Nisaba.Pair
