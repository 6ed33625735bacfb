import Verif.Lemmas.FeaturePair
/-!
# Lemmas on importing feature pairs
-/
namespace Nisaba.Pair
open Nisaba.Inv

/-- Methods of the inventories that are called. -/
def invMethods : List String :=
  ["add_item", "valid_item", "_add_field", "_add_symbol_and_atomic", "_add_symbol", "_add_to_dicts",
   "add_graphemes", "import_graphemes", "make_iterable_suppl", "add_suppl", "make_suppl"]

/-- A state in which nothing hides a method, and the items of the inventories are symbols. -/
structure Ready (s : State) : Prop where
  clear : Clear s.syms
  seven : 7 ≤ s.syms.length
  below : ∀ g, Item.sym g ∈ s.inv.items ∨ Item.sym g ∈ s.atomics.items → g < s.syms.length
  free : ∀ m ∈ invMethods, s.inv.hasKey m = false ∧ s.atomics.hasKey m = false
  valid : ∀ g, s.inv.valid (.sym g) = true ∧ s.atomics.valid (.sym g) = true

/-- The alias is a field of the inventory or of its atomics. -/
def Taken (s : State) (a : String) : Prop := s.inv.hasKey a = true ∨ s.atomics.hasKey a = true

theorem method_ok {i : Inventory Item} {m : String} (h : i.hasKey m = false) : i.method m = .ok () := by
  unfold Inventory.method
  rw [h]; rfl

theorem State.method_ok {s : State} {m : String} (h : s.inv.hasKey m = false) :
    s.method m = .ok () := by
  unfold State.method
  rw [Pair.method_ok h]

theorem addItem_ok {i : Inventory Item} {a : String} {v : Item}
    (h1 : i.hasKey "add_item" = false) (h2 : i.hasKey "valid_item" = false)
    (h3 : i.hasKey "_add_field" = false) (hv : i.valid v = true) (hn : v ∉ i.items)
    (ha : i.hasKey a = false) :
    i.addItem a v = ({ i with
      dict := i.dict ++ [(a, .val v)]
      items := i.items ++ [v]
      itemAliases := i.itemAliases ++ [a] }, .ok true) := by
  unfold Inventory.addItem
  rw [Pair.method_ok h1, Pair.method_ok h2, Pair.method_ok h3]
  have : (!i.valid v || i.items.contains v) = false := by
    rw [hv]; simp [hn]
  simp only [this]
  unfold Inventory.addField
  rw [ha]
  rfl

theorem hasKey_append (i : Inventory Item) (l : List (String × Field Item)) (xs : List Item)
    (ys : List String) (a : String) :
    ({ i with dict := i.dict ++ l, items := xs, itemAliases := ys } :
      Inventory Item).hasKey a = (i.hasKey a || l.any fun p => p.1 == a) := by
  simp [Inventory.hasKey]

/-- A state with symbols added to the inventory and its atomics. -/
def State.plus (s : State) (gs : List (Nat × String)) : State :=
  { s with
    inv := { s.inv with
      dict := s.inv.dict ++ gs.map (fun p => (p.2, .val (.sym p.1)))
      items := s.inv.items ++ gs.map (fun p => .sym p.1)
      itemAliases := s.inv.itemAliases ++ gs.map (·.2) }
    atomics := { s.atomics with
      dict := s.atomics.dict ++ gs.map (fun p => (p.2, .val (.sym p.1)))
      items := s.atomics.items ++ gs.map (fun p => .sym p.1)
      itemAliases := s.atomics.itemAliases ++ gs.map (·.2) } }

theorem plus_nil (s : State) : s.plus [] = s := by
  simp [State.plus]

theorem plus_plus (s : State) (gs hs : List (Nat × String)) : (s.plus gs).plus hs = s.plus (gs ++ hs) := by
  simp [State.plus]

theorem plus_hasKey (s : State) (gs : List (Nat × String)) (a : String) :
    (s.plus gs).inv.hasKey a = (s.inv.hasKey a || gs.any fun p => p.2 == a) ∧
    (s.plus gs).atomics.hasKey a = (s.atomics.hasKey a || gs.any fun p => p.2 == a) := by
  constructor <;> simp [State.plus, Inventory.hasKey, Function.comp_def]

theorem plus_taken (s : State) (gs : List (Nat × String)) (a : String) :
    Taken (s.plus gs) a ↔ Taken s a ∨ a ∈ gs.map (·.2) := by
  unfold Taken
  rw [(plus_hasKey s gs a).1, (plus_hasKey s gs a).2]
  have : (gs.any fun p => p.2 == a) = true ↔ a ∈ gs.map (·.2) := by
    rw [List.any_eq_true, List.mem_map]
    simp
  simp only [Bool.or_eq_true, this]
  grind

theorem plus_ready {s : State} (hs : Ready s) {gs : List (Nat × String)}
    (hg : ∀ p ∈ gs, p.1 < s.syms.length ∧ p.2 ∉ invMethods) : Ready (s.plus gs) := by
  refine ⟨hs.clear, hs.seven, ?_, ?_, hs.valid⟩
  · intro g h
    simp only [State.plus, List.mem_append, List.mem_map] at h
    have key : (∃ p ∈ gs, Item.sym p.1 = Item.sym g) → g < s.syms.length := by
      rintro ⟨p, hp, e⟩
      cases e
      exact (hg p hp).1
    rcases h with (h | h) | (h | h)
    · exact hs.below g (.inl h)
    · exact key h
    · exact hs.below g (.inr h)
    · exact key h
  · intro m hm
    have : (gs.any fun p => p.2 == m) = false := by
      rw [List.any_eq_false]
      intro p hp e
      have : p.2 = m := by simpa using e
      exact (hg p hp).2 (this ▸ hm)
    rw [(plus_hasKey s gs m).1, (plus_hasKey s gs m).2, this]
    simpa using hs.free m hm

theorem add_one {s : State} (hs : Ready s) {g : Nat} {a : String}
    (hn : Item.sym g ∉ s.inv.items ∧ Item.sym g ∉ s.atomics.items) (ha : ¬ Taken s a)
    (hm : a ∉ invMethods) :
    s.addSymbolAndAtomic g a = (s.plus [(g, a)], .ok true) := by
  have hk : s.inv.hasKey a = false ∧ s.atomics.hasKey a = false := by
    unfold Taken at ha
    constructor
    · cases h : s.inv.hasKey a with
      | false => rfl
      | true => exact absurd (.inl h) ha
    · cases h : s.atomics.hasKey a with
      | false => rfl
      | true => exact absurd (.inr h) ha
  unfold State.addSymbolAndAtomic
  rw [State.method_ok (hs.free _ (by decide)).1, State.method_ok (hs.free _ (by decide)).1]
  simp only
  rw [addItem_ok (hs.free _ (by decide)).1 (hs.free _ (by decide)).1 (hs.free _ (by decide)).1
    (hs.valid g).1 hn.1 hk.1]
  simp only
  rw [State.method_ok (by
    rw [hasKey_append, (hs.free _ (by decide)).1]
    have : a ≠ "_add_to_dicts" := by
      rintro rfl
      exact hm (by decide)
    simp [this])]
  simp only
  rw [addItem_ok (hs.free _ (by decide)).2 (hs.free _ (by decide)).2 (hs.free _ (by decide)).2
    (hs.valid g).2 hn.2 hk.2]
  rfl

theorem addGraphemes_ok {gs : List (Nat × String)} : ∀ {s : State}, Ready s →
    (∀ p ∈ gs, p.1 < s.syms.length ∧ Item.sym p.1 ∉ s.inv.items ∧ Item.sym p.1 ∉ s.atomics.items ∧
      ¬ Taken s p.2 ∧ p.2 ∉ invMethods) →
    (gs.map (·.1)).Nodup → (gs.map (·.2)).Nodup →
    s.addGraphemes gs = (s.plus gs, .ok (gs.map (·.1))) := by
  induction gs with
  | nil => intro s _ _ _ _; simp [State.addGraphemes, plus_nil]
  | cons p gs ih =>
    obtain ⟨g, a⟩ := p
    intro s hs h h1 h2
    have hp := h (g, a) (List.mem_cons_self ..)
    rw [State.addGraphemes, add_one hs ⟨hp.2.1, hp.2.2.1⟩ hp.2.2.2.1 hp.2.2.2.2]
    simp only
    rw [List.map_cons, List.nodup_cons] at h1 h2
    have hr := plus_ready hs (gs := [(g, a)]) (by
      intro p hp'
      rw [List.mem_singleton] at hp'
      subst hp'
      exact ⟨hp.1, hp.2.2.2.2⟩)
    rw [ih hr ?_ h1.2 h2.2, plus_plus]
    · simp
    · intro q hq
      have hq' := h q (List.mem_cons_of_mem _ hq)
      have hne : q.1 ≠ g := fun e => h1.1 (e ▸ List.mem_map.2 ⟨q, hq, rfl⟩)
      have hne2 : q.2 ≠ a := fun e => h2.1 (e ▸ List.mem_map.2 ⟨q, hq, rfl⟩)
      refine ⟨hq'.1, ?_, ?_, ?_, hq'.2.2.2.2⟩
      · simp [State.plus, hq'.2.1, hne]
      · simp [State.plus, hq'.2.2.1, hne]
      · rw [plus_taken]
        simp [hq'.2.2.2.1, hne2]

theorem get_append_left {w v : Syms} {g : Nat} (h : g < w.length) (m : String) :
    get (w ++ v) g m = get w g m := by
  unfold get
  rw [List.getElem?_append_left h]

theorem clear_append {w v : Syms} (hw : Clear w) (hv : ∀ o ∈ v, ∃ a fs, o = Obj.new a fs) :
    Clear (w ++ v) := by
  have hv' := clear_of_new hv
  have key : ∀ s m, get (w ++ v) s m = if s < w.length then get w s m else get v (s - w.length) m := by
    intro s m
    unfold get
    by_cases h : s < w.length
    · rw [List.getElem?_append_left h, if_pos h]
    · rw [List.getElem?_append_right (by omega), if_neg h]
  constructor
  · intro s m hm
    rw [key]
    split
    · exact hw.methods s m hm
    · exact hv'.methods _ m hm
  · intro s hs
    rw [List.length_append] at hs
    rw [key]
    split
    · exact hw.features s (by assumption)
    · exact hv'.features _ (by omega)

theorem copyOf_new (w : Syms) (g : Nat) : ∃ a fs, copyOf w g = Obj.new a fs := by
  unfold copyOf
  split
  · exact ⟨_, _, rfl⟩
  · exact ⟨_, _, rfl⟩

/-- What the loop of `import_as_feature_pairs` leaves for the pairs, from place `n` on. -/
def Imported (w w' : Syms) (f t : Ftr) : Nat → List (Nat × Nat) → Prop
  | _, [] => True
  | n, (x, y) :: ps =>
    get w' n f.text = some (.sym n) ∧ get w' n t.text = some (.sym (n + 1)) ∧
    get w' (n + 1) t.text = some (.sym (n + 1)) ∧ get w' (n + 1) f.text = some (.sym n) ∧
    get w' n f.aspect = some (.feat f.id) ∧ get w' (n + 1) t.aspect = some (.feat t.id) ∧
    aliasOf w' n = aliasOf w x ∧ aliasOf w' (n + 1) = aliasOf w y ∧
    added w' n = added w x ++ [f.id] ∧ added w' (n + 1) = added w y ++ [t.id] ∧
    Imported w w' f t (n + 2) ps

/-- The places of the copies with their aliases. -/
def copies (w : Syms) : Nat → List (Nat × Nat) → List (Nat × String)
  | _, [] => []
  | n, (x, y) :: ps => (n, (copyOf w x).alias) :: (n + 1, (copyOf w y).alias) :: copies w (n + 2) ps

theorem aliasOf_congr {w v : Syms} {g : Nat} (h : w[g]? = v[g]?) : aliasOf w g = aliasOf v g := by
  unfold aliasOf; rw [h]
theorem added_congr {w v : Syms} {g : Nat} (h : w[g]? = v[g]?) : added w g = added v g := by
  unfold added; rw [h]
theorem get_congr {w v : Syms} {g : Nat} (h : w[g]? = v[g]?) (m : String) : get w g m = get v g m := by
  unfold get; rw [h]
theorem copyOf_congr {w v : Syms} {g : Nat} (h : w[g]? = v[g]?) : copyOf w g = copyOf v g := by
  unfold copyOf; rw [h]

theorem copies_congr {w v : Syms} : ∀ {ps : List (Nat × Nat)} {n : Nat},
    (∀ p ∈ ps, w[p.1]? = v[p.1]? ∧ w[p.2]? = v[p.2]?) → copies w n ps = copies v n ps
  | [], _, _ => rfl
  | (x, y) :: ps, n, h => by
    have h0 := h (x, y) (List.mem_cons_self ..)
    simp only [copies]
    rw [copyOf_congr h0.1, copyOf_congr h0.2,
      copies_congr (fun p hp => h p (List.mem_cons_of_mem _ hp))]

theorem imported_congr {w v w' : Syms} {f t : Ftr} : ∀ {ps : List (Nat × Nat)} {n : Nat},
    (∀ p ∈ ps, w[p.1]? = v[p.1]? ∧ w[p.2]? = v[p.2]?) → Imported w w' f t n ps →
    Imported v w' f t n ps
  | [], _, _, _ => trivial
  | (x, y) :: ps, n, h, hi => by
    have h0 := h (x, y) (List.mem_cons_self ..)
    obtain ⟨a1, a2, a3, a4, a5, a6, a7, a8, a9, a10, a11⟩ := hi
    exact ⟨a1, a2, a3, a4, a5, a6, a7.trans (aliasOf_congr h0.1), a8.trans (aliasOf_congr h0.2),
      a9.trans (by rw [added_congr h0.1]), a10.trans (by rw [added_congr h0.2]),
      imported_congr (fun p hp => h p (List.mem_cons_of_mem _ hp)) a11⟩

theorem copies_fst (w : Syms) : ∀ (ps : List (Nat × Nat)) (n : Nat),
    (copies w n ps).map (·.1) = List.range' n (2 * ps.length)
  | [], n => rfl
  | (x, y) :: ps, n => by
    simp only [copies, List.map_cons, List.length_cons]
    rw [copies_fst w ps (n + 2), show 2 * (ps.length + 1) = 2 * ps.length + 1 + 1 by omega,
      List.range'_succ, List.range'_succ]

/-- The names of the features are no names that are needed, and aspects differ from features. -/
structure PairNames (f t : Ftr) : Prop where
  ok : NamesOk f t true
  ne : f.text ≠ t.text
  fa : f.aspect ≠ f.text ∧ f.aspect ≠ t.text
  ta : t.aspect ≠ f.text ∧ t.aspect ≠ t.text

theorem importLoop_ok {f t : Ftr} (hn : PairNames f t) : ∀ {ps : List (Nat × Nat)} {s : State},
    Ready s → (∀ p ∈ ps, p.1 < s.syms.length ∧ p.2 < s.syms.length) →
    ((copies s.syms s.syms.length ps).map (·.2)).Nodup →
    (∀ a ∈ (copies s.syms s.syms.length ps).map (·.2), ¬ Taken s a ∧ a ∉ invMethods) →
    ∃ s', s.importLoop f t ps = (s', .ok (List.range' s.syms.length ps.length 2,
        List.range' (s.syms.length + 1) ps.length 2)) ∧
      Ready s' ∧ s'.syms.length = s.syms.length + 2 * ps.length ∧
      (∀ g, g < s.syms.length → s'.syms[g]? = s.syms[g]?) ∧
      Imported s.syms s'.syms f t s.syms.length ps ∧
      s'.inv = (s.plus (copies s.syms s.syms.length ps)).inv ∧
      s'.atomics = (s.plus (copies s.syms s.syms.length ps)).atomics
  | [], s, hs, _, _, _ => by
    refine ⟨s, rfl, hs, rfl, fun _ _ => rfl, trivial, ?_, ?_⟩ <;> simp [copies, plus_nil]
  | (x, y) :: ps, s, hs, hp, hnd, hfree => by
    have hxy := hp (x, y) (List.mem_cons_self ..)
    simp only [copies, List.map_cons, List.nodup_cons, List.mem_cons, not_or] at hnd hfree
    have ax := hfree (copyOf s.syms x).alias (.inl rfl)
    have ay := hfree (copyOf s.syms y).alias (.inr (.inl rfl))
    rw [State.importLoop, State.method_ok (hs.free _ (by decide)).1]
    simp only
    unfold State.importGraphemes
    rw [State.method_ok (hs.free _ (by decide)).1]
    simp only [List.map_cons, List.map_nil, placed]
    have hnew : ∀ o ∈ [copyOf s.syms x, copyOf s.syms y], ∃ a fs, o = Obj.new a fs := by
      intro o ho
      simp only [List.mem_cons, List.not_mem_nil, or_false] at ho
      rcases ho with rfl | rfl <;> exact copyOf_new ..
    have hs1 : Ready { s with syms := s.syms ++ [copyOf s.syms x, copyOf s.syms y] } := by
      refine ⟨clear_append hs.clear hnew, ?_, ?_, hs.free, hs.valid⟩
      · have := hs.seven
        simp only [List.length_append]; omega
      · intro g hg
        have := hs.below g hg
        simp only [List.length_append]; omega
    have nin : ∀ g, s.syms.length ≤ g → Item.sym g ∉ s.inv.items ∧ Item.sym g ∉ s.atomics.items := by
      intro g hg
      constructor
      · intro h; have := hs.below g (.inl h); omega
      · intro h; have := hs.below g (.inr h); omega
    have hgr := addGraphemes_ok (gs := [(s.syms.length, (copyOf s.syms x).alias),
      (s.syms.length + 1, (copyOf s.syms y).alias)]) hs1 (by
        intro p hp
        simp only [List.mem_cons, List.not_mem_nil, or_false] at hp
        rcases hp with rfl | rfl
        · exact ⟨by simp, (nin _ (Nat.le_refl _)).1, (nin _ (Nat.le_refl _)).2, ax.1, ax.2⟩
        · exact ⟨by simp, (nin _ (Nat.le_succ _)).1, (nin _ (Nat.le_succ _)).2, ay.1, ay.2⟩)
      (by simp) (by
        simp only [List.map_cons, List.map_nil, List.nodup_cons, List.mem_singleton,
          List.not_mem_nil, not_false_eq_true, List.nodup_nil, and_true]
        exact hnd.1.1)
    rw [hgr]
    simp only [List.map_cons, List.map_nil, List.getElem?_cons_zero, List.getElem?_cons_succ]
    have hr2 := plus_ready hs1 (gs := [(s.syms.length, (copyOf s.syms x).alias),
      (s.syms.length + 1, (copyOf s.syms y).alias)]) (by
        intro p hp
        simp only [List.mem_cons, List.not_mem_nil, or_false] at hp
        rcases hp with rfl | rfl
        · exact ⟨by simp, ax.2⟩
        · exact ⟨by simp, ay.2⟩)
    have hw1 : ({ s with syms := s.syms ++ [copyOf s.syms x, copyOf s.syms y] }.plus
        [(s.syms.length, (copyOf s.syms x).alias),
          (s.syms.length + 1, (copyOf s.syms y).alias)]).syms =
        s.syms ++ [copyOf s.syms x, copyOf s.syms y] := rfl
    rw [hw1]
    obtain ⟨w2, e2, he⟩ := featurePair_eff hs1.clear (x := s.syms.length) (y := s.syms.length + 1)
      (by simp) (by simp) hn.ok true
    rw [e2]
    simp only
    have hl2 : w2.length = s.syms.length + 2 := by rw [he.length]; simp
    have hold : ∀ g, g < s.syms.length → w2[g]? = s.syms[g]? := by
      intro g hg
      have := featurePair_other (w := s.syms ++ [copyOf s.syms x, copyOf s.syms y])
        (x := s.syms.length) (y := s.syms.length + 1) (s := g) (.inl ⟨by omega, by omega⟩) f t true
        true
      rw [e2] at this
      rw [this, List.getElem?_append_left hg]
    have hr3 : Ready { ({ s with syms := s.syms ++ [copyOf s.syms x, copyOf s.syms y] }.plus
        [(s.syms.length, (copyOf s.syms x).alias),
          (s.syms.length + 1, (copyOf s.syms y).alias)]) with syms := w2 } := by
      refine ⟨he.clear, ?_, ?_, hr2.free, hr2.valid⟩
      · have := hs.seven
        simp only; omega
      · intro g hg
        have := hr2.below g hg
        rw [hw1] at this
        simp only [List.length_append, List.length_cons, List.length_nil] at this
        simp only; omega
    have hps : ∀ p ∈ ps, w2[p.1]? = s.syms[p.1]? ∧ w2[p.2]? = s.syms[p.2]? := fun p hp' =>
      ⟨hold _ (hp p (List.mem_cons_of_mem _ hp')).1, hold _ (hp p (List.mem_cons_of_mem _ hp')).2⟩
    have hcop : copies w2 w2.length ps = copies s.syms (s.syms.length + 2) ps := by
      rw [hl2]; exact copies_congr hps
    obtain ⟨s', e3, h1, h2, h3, h4, h5, h6⟩ := importLoop_ok hn (ps := ps) hr3
      (fun p hp' => by
        have := hp p (List.mem_cons_of_mem _ hp')
        simp only; omega)
      (by simp only; rw [hcop]; exact hnd.2.2)
      (by
        simp only
        rw [hcop]
        intro a ha
        have := hfree a (.inr (.inr ha))
        refine ⟨?_, this.2⟩
        have hk : Taken { ({ s with syms := s.syms ++ [copyOf s.syms x, copyOf s.syms y] }.plus
          [(s.syms.length, (copyOf s.syms x).alias),
          (s.syms.length + 1, (copyOf s.syms y).alias)]) with syms := w2 } a ↔
          Taken (s.plus [(s.syms.length, (copyOf s.syms x).alias),
          (s.syms.length + 1, (copyOf s.syms y).alias)]) a := Iff.rfl
        rw [hk, plus_taken]
        simp only [List.map_cons, List.map_nil, List.mem_cons, List.not_mem_nil, or_false]
        rintro (h | rfl | rfl)
        · exact this.1 h
        · exact hnd.1.2 ha
        · exact hnd.2.1 ha)
    rw [e3]
    simp only
    refine ⟨s', ?_, h1, ?_, ?_, ?_, ?_, ?_⟩
    · simp only [hl2, List.length_cons, List.range'_succ]
    · rw [h2]; simp only [hl2, List.length_cons]; omega
    · intro g hg
      rw [h3 g (by simp only; omega)]
      exact hold g hg
    · have hc0 : isCtrl s.syms.length = false := by
        have := hs.seven
        cases h : isCtrl s.syms.length with
        | false => rfl
        | true => rw [isCtrl_iff] at h; omega
      have hc1 : isCtrl (s.syms.length + 1) = false := by
        have := hs.seven
        cases h : isCtrl (s.syms.length + 1) with
        | false => rfl
        | true => rw [isCtrl_iff] at h; omega
      have k0 := h3 s.syms.length (by simp only; omega)
      have k1 := h3 (s.syms.length + 1) (by simp only; omega)
      simp only at k0 k1
      have al0 : aliasOf (s.syms ++ [copyOf s.syms x, copyOf s.syms y]) s.syms.length =
          aliasOf s.syms x := by
        unfold aliasOf
        rw [List.getElem?_append_right (Nat.le_refl _)]
        simp [copyOf, List.getElem?_eq_getElem hxy.1, Obj.new]
      have al1 : aliasOf (s.syms ++ [copyOf s.syms x, copyOf s.syms y]) (s.syms.length + 1) =
          aliasOf s.syms y := by
        unfold aliasOf
        rw [List.getElem?_append_right (Nat.le_succ _)]
        simp [copyOf, List.getElem?_eq_getElem hxy.2, Obj.new]
      have ad0 : added (s.syms ++ [copyOf s.syms x, copyOf s.syms y]) s.syms.length =
          added s.syms x := by
        unfold added
        rw [List.getElem?_append_right (Nat.le_refl _)]
        simp [copyOf, List.getElem?_eq_getElem hxy.1, Obj.new]
      have ad1 : added (s.syms ++ [copyOf s.syms x, copyOf s.syms y]) (s.syms.length + 1) =
          added s.syms y := by
        unfold added
        rw [List.getElem?_append_right (Nat.le_succ _)]
        simp [copyOf, List.getElem?_eq_getElem hxy.2, Obj.new]
      have n1 := hn.ne
      have n2 := hn.fa
      have n3 := hn.ta
      refine ⟨?_, ?_, ?_, ?_, ?_, ?_, ?_, ?_, ?_, ?_, ?_⟩
      · rw [get_congr k0, he.get]; simp [hc0, n1, n2.1.symm]
      · rw [get_congr k0, he.get]; simp [hc0, hc1, n2.2.symm]
      · rw [get_congr k1, he.get]; simp [hc1, n1.symm, n3.2.symm]
      · rw [get_congr k1, he.get]; simp [hc0, hc1, n3.1.symm]
      · rw [get_congr k0, he.get]; simp [hc0]
      · rw [get_congr k1, he.get]; simp [hc1]
      · rw [aliasOf_congr k0, he.alias, al0]
      · rw [aliasOf_congr k1, he.alias, al1]
      · rw [added_congr k0, he.added, ad0]; simp [hc0]
      · rw [added_congr k1, he.added, ad1]; simp [hc1]
      · simp only [hl2] at h4
        exact imported_congr hps h4
    · rw [h5]
      simp only [hcop]
      simp [State.plus, copies]
    · rw [h6]
      simp only [hcop]
      simp [State.plus, copies]

end Nisaba.Pair
