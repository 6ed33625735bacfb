import Verif.Model.Inventory
/-!
# C41: inventories never overwrite or alias items
-/
namespace Nisaba.Props
open Nisaba Nisaba.Inv

section
variable {V : Type} [DecidableEq V]

/-- Invariant of every reachable inventory. -/
structure InvOk (s : Inventory V) : Prop where
  len : s.itemAliases.length = s.items.length
  nodup : (s.dict.map (·.1)).Nodup
  items : ∀ i (h : i < s.items.length) (h' : i < s.itemAliases.length),
    (s.itemAliases[i], Field.val s.items[i]) ∈ s.dict
  distinct : s.items.Nodup
  aliases : s.itemAliases.Nodup
  suppls : ∀ a ∈ s.supplAliases, s.hasKey a = true

omit [DecidableEq V] in
theorem hasKey_iff (s : Inventory V) (k : String) :
    s.hasKey k = true ↔ ∃ f, (k, f) ∈ s.dict := by
  simp only [Inventory.hasKey, List.any_eq_true, beq_iff_eq]
  constructor
  · rintro ⟨⟨a, f⟩, hm, rfl⟩; exact ⟨f, hm⟩
  · rintro ⟨f, hm⟩; exact ⟨_, hm, rfl⟩

/-- The outcomes of `add_item`. -/
theorem addItem_cases (s : Inventory V) (a : String) (v : V) :
    ((s.addItem a v).1 = s ∧ (s.addItem a v).2 ≠ .ok true) ∨
    (s.hasKey a = false ∧ s.valid v = true ∧ v ∉ s.items ∧
      s.addItem a v = ({ s with dict := s.dict ++ [(a, .val v)], items := s.items ++ [v],
                                itemAliases := s.itemAliases ++ [a] }, .ok true)) := by
  unfold Inventory.addItem
  split
  · left; exact ⟨rfl, by simp⟩
  · split
    · left; exact ⟨rfl, by simp⟩
    · split
      · left; exact ⟨rfl, by simp⟩
      · next hc =>
        split
        · left; exact ⟨rfl, by simp⟩
        · by_cases hk : s.hasKey a = true
          · left
            have : s.addField a v = (s, false) := by simp [Inventory.addField, hk]
            rw [this]; exact ⟨rfl, by simp⟩
          · right
            have hk' : s.hasKey a = false := by simpa using hk
            have : s.addField a v = ({ s with dict := s.dict ++ [(a, .val v)] }, true) := by
              simp [Inventory.addField, hk']
            rw [this]
            simp only [Bool.or_eq_true, Bool.not_eq_true', List.contains_iff_mem, not_or] at hc
            exact ⟨hk', by simpa using hc.1, by simpa using hc.2, rfl⟩

omit [DecidableEq V] in
/-- The outcomes of `make_suppl`. -/
theorem makeSuppl_cases (s : Inventory V) (a : String) (v : V) :
    ((s.makeSuppl a v).1 = s ∧ (s.makeSuppl a v).2 ≠ .ok true) ∨
    (s.hasKey a = false ∧
      s.makeSuppl a v = ({ s with dict := s.dict ++ [(a, .val v)],
                                  supplAliases := s.supplAliases ++ [a] }, .ok true)) := by
  unfold Inventory.makeSuppl
  split
  · left; exact ⟨rfl, by simp⟩
  · split
    · left; exact ⟨rfl, by simp⟩
    · by_cases hk : s.hasKey a = true
      · left
        have : s.addField a v = (s, false) := by simp [Inventory.addField, hk]
        rw [this]; exact ⟨rfl, by simp⟩
      · right
        have hk' : s.hasKey a = false := by simpa using hk
        have : s.addField a v = ({ s with dict := s.dict ++ [(a, .val v)] }, true) := by
          simp [Inventory.addField, hk']
        rw [this]; exact ⟨hk', rfl⟩

omit [DecidableEq V] in
theorem addSuppl_cases (s : Inventory V) (a : String) (v : V) :
    ((s.addSuppl a v).1 = s ∧ (s.addSuppl a v).2 ≠ .ok true) ∨
    (s.hasKey a = false ∧
      s.addSuppl a v = ({ s with dict := s.dict ++ [(a, .val v)],
                                 supplAliases := s.supplAliases ++ [a] }, .ok true)) := by
  unfold Inventory.addSuppl
  split
  · left; exact ⟨rfl, by simp⟩
  · exact makeSuppl_cases s a v

omit [DecidableEq V] in
theorem nodup_snoc_key {s : Inventory V} (h : (s.dict.map (·.1)).Nodup) {a : String} {v : V}
    (hk : s.hasKey a = false) :
    ((s.dict ++ [(a, Field.val v)]).map (·.1)).Nodup := by
  rw [List.map_append, List.nodup_append]
  refine ⟨h, by simp, ?_⟩
  intro x hx y hy
  simp only [List.map_cons, List.map_nil, List.mem_singleton] at hy
  subst hy
  rintro rfl
  obtain ⟨⟨k, f⟩, hm, rfl⟩ := List.mem_map.1 hx
  have := (hasKey_iff s k).2 ⟨f, hm⟩
  simp [hk] at this

omit [DecidableEq V] in
theorem InvOk.alias_key {s : Inventory V} (h : InvOk s) {a : String} (ha : a ∈ s.itemAliases) :
    s.hasKey a = true := by
  obtain ⟨i, hi, rfl⟩ := List.getElem_of_mem ha
  exact (hasKey_iff _ _).2 ⟨_, h.items i (by rw [← h.len]; exact hi) hi⟩

omit [DecidableEq V] in
theorem hasKey_snoc {s : Inventory V} {x a : String} {f : Field V} {t : Inventory V}
    (h : s.hasKey x = true) (ht : t.dict = s.dict ++ [(a, f)] := by rfl) : t.hasKey x = true := by
  obtain ⟨g, hg⟩ := (hasKey_iff s x).1 h
  exact (hasKey_iff t x).2 ⟨g, by rw [ht]; exact List.mem_append_left _ hg⟩

theorem step_ok (s : Inventory V) (o : Op V) (h : InvOk s) : InvOk (s.step o).1 := by
  cases o with
  | addItem a v =>
    simp only [Inventory.step]
    rcases addItem_cases s a v with ⟨h1, _⟩ | ⟨hk, hv, hn, he⟩
    · rw [h1]; exact h
    · rw [he]
      refine ⟨by simp [h.len], nodup_snoc_key h.nodup hk, ?_, ?_, ?_, ?_⟩
      · intro i hi hi'
        simp only [List.length_append, List.length_singleton] at hi hi'
        by_cases hlt : i < s.items.length
        · have hlt' : i < s.itemAliases.length := by rw [h.len]; exact hlt
          simp only [List.getElem_append_left hlt, List.getElem_append_left hlt']
          exact List.mem_append_left _ (h.items i hlt hlt')
        · have e : i = s.items.length := by omega
          have e' : i = s.itemAliases.length := by rw [h.len]; exact e
          apply List.mem_append_right
          rw [List.getElem_append_right (by omega), List.getElem_append_right (by omega)]
          simp
      · rw [List.nodup_append]
        exact ⟨h.distinct, by simp, by rintro x hx y hy rfl; simp at hy; subst hy; exact hn hx⟩
      · rw [List.nodup_append]
        refine ⟨h.aliases, by simp, ?_⟩
        rintro x hx y hy rfl
        simp at hy; subst hy
        have := h.alias_key hx
        simp [hk] at this
      · intro x hx
        exact hasKey_snoc (h.suppls x hx)
  | addSuppl a v =>
    simp only [Inventory.step]
    rcases addSuppl_cases s a v with ⟨h1, _⟩ | ⟨hk, he⟩
    · rw [h1]; exact h
    · rw [he]
      exact ⟨h.len, nodup_snoc_key h.nodup hk,
        fun i hi hi' => List.mem_append_left _ (h.items i hi hi'), h.distinct, h.aliases,
        fun x hx => by
          rcases List.mem_append.1 hx with hx | hx
          · exact hasKey_snoc (h.suppls x hx)
          · have e : x = a := by simpa using hx
            subst e
            exact (hasKey_iff _ _).2 ⟨.val v, by simp⟩⟩
  | makeSuppl a v =>
    simp only [Inventory.step]
    rcases makeSuppl_cases s a v with ⟨h1, _⟩ | ⟨hk, he⟩
    · rw [h1]; exact h
    · rw [he]
      exact ⟨h.len, nodup_snoc_key h.nodup hk,
        fun i hi hi' => List.mem_append_left _ (h.items i hi hi'), h.distinct, h.aliases,
        fun x hx => by
          rcases List.mem_append.1 hx with hx | hx
          · exact hasKey_snoc (h.suppls x hx)
          · have e : x = a := by simpa using hx
            subst e
            exact (hasKey_iff _ _).2 ⟨.val v, by simp⟩⟩

/-- A field, once there, keeps its value; the lists only grow at the end. -/
theorem step_grows (s : Inventory V) (o : Op V) :
    s.dict <+: (s.step o).1.dict ∧ s.items <+: (s.step o).1.items ∧
    s.itemAliases <+: (s.step o).1.itemAliases ∧ s.supplAliases <+: (s.step o).1.supplAliases ∧
    (s.step o).1.valid = s.valid := by
  cases o with
  | addItem a v =>
    simp only [Inventory.step]
    rcases addItem_cases s a v with ⟨h1, _⟩ | ⟨_, _, _, he⟩
    · rw [h1]; simp
    · rw [he]; simp
  | addSuppl a v =>
    simp only [Inventory.step]
    rcases addSuppl_cases s a v with ⟨h1, _⟩ | ⟨_, he⟩
    · rw [h1]; simp
    · rw [he]; simp
  | makeSuppl a v =>
    simp only [Inventory.step]
    rcases makeSuppl_cases s a v with ⟨h1, _⟩ | ⟨_, he⟩
    · rw [h1]; simp
    · rw [he]; simp

theorem run_ok (s : Inventory V) (os : List (Op V)) (h : InvOk s) : InvOk (s.run os).1 := by
  induction os generalizing s with
  | nil => exact h
  | cons o os ih => exact ih _ (step_ok s o h)

theorem run_grows (s : Inventory V) (os : List (Op V)) :
    s.dict <+: (s.run os).1.dict ∧ s.items <+: (s.run os).1.items ∧
    s.itemAliases <+: (s.run os).1.itemAliases ∧
    s.supplAliases <+: (s.run os).1.supplAliases ∧ (s.run os).1.valid = s.valid := by
  induction os generalizing s with
  | nil => simp [Inventory.run]
  | cons o os ih =>
    obtain ⟨a1, a2, a3, a4, a5⟩ := step_grows s o
    obtain ⟨b1, b2, b3, b4, b5⟩ := ih (s.step o).1
    exact ⟨a1.trans b1, a2.trans b2, a3.trans b3, a4.trans b4, b5.trans a5⟩

omit [DecidableEq V] in
theorem new_ok (valid : V → Bool) (extra : List String) (h : (ownFields ++ extra).Nodup) :
    InvOk (Inventory.new valid extra) := by
  refine ⟨rfl, ?_, ?_, by simp [Inventory.new], by simp [Inventory.new], by simp [Inventory.new]⟩
  · simpa [Inventory.new, Function.comp_def] using h
  · intro i hi; simp [Inventory.new] at hi

theorem run_append (s : Inventory V) (a b : List (Op V)) :
    s.run (a ++ b) = (((s.run a).1.run b).1, (s.run a).2 ++ ((s.run a).1.run b).2) := by
  induction a generalizing s with
  | nil => simp [Inventory.run]
  | cons o os ih => simp [Inventory.run, ih]

/-! ## C41 -/

/-- Inventory reached from a new one by some calls. -/
def ReachableInv (s : Inventory V) : Prop :=
  ∃ valid extra os, (ownFields ++ extra).Nodup ∧ s = ((Inventory.new valid extra).run os).1

theorem ReachableInv.ok {s : Inventory V} (h : ReachableInv s) : InvOk s := by
  obtain ⟨valid, extra, os, hx, rfl⟩ := h
  exact run_ok _ _ (new_ok valid extra hx)

/-- **C41** (success).  As long as no field hides a method that `add_item` calls, `add_item` raises
nothing, and it returns true exactly if the value is valid, no item equals it, and no attribute of
the inventory has the alias; then the value is appended to the items.  Otherwise nothing changes. -/
theorem C41_add_item (s : Inventory V) (a : String) (v : V)
    (hm : ∀ m ∈ ["add_item", "valid_item", "_add_field"], s.hasKey m = false) :
    (∃ b, (s.addItem a v).2 = .ok b ∧
      (b = true ↔ s.valid v = true ∧ v ∉ s.items ∧ s.hasKey a = false) ∧
      (b = true → (s.addItem a v).1.items = s.items ++ [v] ∧
        (s.addItem a v).1.itemAliases = s.itemAliases ++ [a]) ∧
      (b = false → (s.addItem a v).1 = s)) := by
  have h1 := hm "add_item" (by simp)
  have h2 := hm "valid_item" (by simp)
  have h3 := hm "_add_field" (by simp)
  by_cases hv : s.valid v = true
  · by_cases hi : v ∈ s.items
    · refine ⟨false, ?_, by simp [hi], by simp, fun _ => ?_⟩ <;>
        simp [Inventory.addItem, Inventory.method, h1, h2, hv, hi]
    · by_cases hk : s.hasKey a = true
      · refine ⟨false, ?_, by simp [hk], by simp, fun _ => ?_⟩ <;>
          simp [Inventory.addItem, Inventory.method, h1, h2, h3, hv, hi, Inventory.addField, hk]
      · have hk' : s.hasKey a = false := by simpa using hk
        refine ⟨true, ?_, by simp [hv, hi, hk'], fun _ => ⟨?_, ?_⟩, by simp⟩ <;>
          simp [Inventory.addItem, Inventory.method, h1, h2, h3, hv, hi, Inventory.addField, hk']
  · refine ⟨false, ?_, by simp [hv], by simp, fun _ => ?_⟩ <;>
      simp [Inventory.addItem, Inventory.method, h1, h2, hv]

example : ∀ m ∈ ["add_item", "valid_item", "_add_field"],
    (Inventory.new (V := Nat) (fun _ => true)).hasKey m = false := by decide

/-- **C41** (failure).  A call that does not return true, by whatever reason, leaves the inventory
as it was. -/
theorem C41_failure_unchanged (s : Inventory V) (o : Op V) (h : (s.step o).2 ≠ .ok true) :
    (s.step o).1 = s := by
  cases o with
  | addItem a v =>
    rcases addItem_cases s a v with ⟨h1, _⟩ | ⟨_, _, _, he⟩
    · exact h1
    · exact absurd (by simp [Inventory.step, he]) h
  | addSuppl a v =>
    rcases addSuppl_cases s a v with ⟨h1, _⟩ | ⟨_, he⟩
    · exact h1
    · exact absurd (by simp [Inventory.step, he]) h
  | makeSuppl a v =>
    rcases makeSuppl_cases s a v with ⟨h1, _⟩ | ⟨_, he⟩
    · exact h1
    · exact absurd (by simp [Inventory.step, he]) h

example : ((Inventory.new (V := Nat) (fun _ => true)).step (.addItem "text" 1)).2 ≠ .ok true := by
  have : ((Inventory.new (V := Nat) (fun _ => true)).step (.addItem "text" 1)).2 = .ok false := rfl
  rw [this]; simp

theorem find_of_nodup {α β : Type} [DecidableEq α] {d : List (α × β)} (hd : (d.map (·.1)).Nodup)
    {k : α} {f : β} (hm : (k, f) ∈ d) : d.find? (fun p => p.1 == k) = some (k, f) := by
  induction d with
  | nil => simp at hm
  | cons p d ih =>
    rw [List.find?_cons]
    rcases List.mem_cons.1 hm with rfl | hm'
    · simp
    · have hne : p.1 ≠ k := by
        intro e
        have := (List.nodup_cons.1 (by simpa using hd : (p.1 :: d.map (·.1)).Nodup)).1
        exact this (List.mem_map.2 ⟨_, hm', e.symm⟩)
      have : (p.1 == k) = false := by simpa using hne
      rw [this]
      exact ih (List.nodup_cons.1 (by simpa using hd : (p.1 :: d.map (·.1)).Nodup)).2 hm'

/-- **C41** (retrieval).  In every reachable inventory the items are pairwise different, their
aliases are pairwise different, and the item at each position is what its alias stands for: as an
attribute, and through `get` unless an item named `get` hides that method.  The only exceptions are
the three names that Python resolves on the type. -/
theorem C41_retrievable_partial (s : Inventory V) (h : ReachableInv s) :
    s.items.Nodup ∧ s.itemAliases.Nodup ∧ s.items.length = s.itemAliases.length ∧
    ∀ i (hi : i < s.items.length) (hi' : i < s.itemAliases.length) (d : V),
      s.itemAliases[i] ∉ dataDescriptors →
      s.getattr s.itemAliases[i] d = some (.val s.items[i]) ∧
      (s.hasKey "get" = false → s.get s.itemAliases[i] d = .ok (some (.val s.items[i]))) := by
  have ho := h.ok
  refine ⟨ho.distinct, ho.aliases, ho.len.symm, ?_⟩
  intro i hi hi' d hnd
  have hg : s.getattr s.itemAliases[i] d = some (.val s.items[i]) := by
    unfold Inventory.getattr
    rw [if_neg hnd, find_of_nodup ho.nodup (ho.items i hi hi')]
  refine ⟨hg, fun hget => ?_⟩
  unfold Inventory.get Inventory.method
  rw [hget]
  have : s.itemAliases.contains s.itemAliases[i] = true := by
    simp
  simp [hg]

/-- **C41** (no overwriting).  Whatever is reached through an attribute of a reachable inventory is
still reached through it after any further calls, and the items keep their places. -/
theorem C41_persistent (s : Inventory V) (h : ReachableInv s) (os : List (Op V)) :
    (∀ k (d d' : V), s.hasKey k = true → (s.run os).1.getattr k d' = s.getattr k d) ∧
    (∀ k (d d' : V), (k ∈ s.itemAliases ∨ k ∈ s.supplAliases) → s.hasKey "get" = false →
      (s.run os).1.hasKey "get" = false →
      (s.run os).1.get k d' = s.get k d) ∧
    ∀ i (hi : i < s.items.length), (s.run os).1.items[i]? = some s.items[i] := by
  have ho := h.ok
  have ho' := run_ok s os ho
  obtain ⟨g1, g2, g3, g4, _⟩ := run_grows s os
  have key : ∀ k (d d' : V), s.hasKey k = true →
      (s.run os).1.getattr k d' = s.getattr k d := by
    intro k d d' hk
    obtain ⟨f, hf⟩ := (hasKey_iff s k).1 hk
    unfold Inventory.getattr
    rw [find_of_nodup ho.nodup hf, find_of_nodup ho'.nodup (g1.subset hf)]
  refine ⟨key, ?_, ?_⟩
  · intro k d d' hk hget hget'
    have hkey : s.hasKey k = true := hk.elim (fun h => ho.alias_key h) (fun h => ho.suppls k h)
    unfold Inventory.get Inventory.method
    rw [hget, hget']
    have h1 : (s.itemAliases.contains k || s.supplAliases.contains k) = true := by
      simp only [Bool.or_eq_true, List.contains_iff_mem]; exact hk
    have h2 : ((s.run os).1.itemAliases.contains k || (s.run os).1.supplAliases.contains k)
        = true := by
      simp only [Bool.or_eq_true, List.contains_iff_mem]
      exact hk.imp (fun h => g3.subset h) (fun h => g4.subset h)
    simp only [h1, h2, if_true, key k d d' hkey]
  · intro i hi
    obtain ⟨t, ht⟩ := g2
    rw [← ht, List.getElem?_append_left hi, List.getElem?_eq_getElem hi]

/-- The values of the `add_item` calls that returned true, in the order of the calls. -/
def addedValues : List (Op V) → List (Except PyErr Bool) → List V
  | .addItem _ v :: os, .ok true :: rs => v :: addedValues os rs
  | _ :: os, _ :: rs => addedValues os rs
  | _, _ => []

omit [DecidableEq V] in
theorem addedValues_fail (o : Op V) (os : List (Op V)) (r : Except PyErr Bool)
    (rs : List (Except PyErr Bool)) (h : r ≠ .ok true) :
    addedValues (o :: os) (r :: rs) = addedValues os rs := by
  cases o <;> cases r with
  | error e => rfl
  | ok b => cases b with
    | true => exact absurd rfl h
    | false => rfl

/-- **C41** (iteration order).  Iterating over the inventory yields exactly the values whose
addition succeeded, in the order of the calls; supplements are not among them. -/
theorem C41_order (s : Inventory V) (os : List (Op V)) :
    (s.run os).1.items = s.items ++ addedValues os (s.run os).2 := by
  induction os generalizing s with
  | nil => simp [Inventory.run, addedValues]
  | cons o os ih =>
    simp only [Inventory.run]
    rw [ih]
    by_cases hr : (s.step o).2 = .ok true
    · cases o with
      | addItem a v =>
        rcases addItem_cases s a v with ⟨_, h2⟩ | ⟨_, _, _, he⟩
        · exact absurd hr h2
        · simp only [Inventory.step, he, addedValues, List.append_assoc, List.singleton_append]
      | addSuppl a v =>
        rcases addSuppl_cases s a v with ⟨_, h2⟩ | ⟨_, he⟩
        · exact absurd hr h2
        · simp only [Inventory.step, he, addedValues]
      | makeSuppl a v =>
        rcases makeSuppl_cases s a v with ⟨_, h2⟩ | ⟨_, he⟩
        · exact absurd hr h2
        · simp only [Inventory.step, he, addedValues]
    · rw [C41_failure_unchanged s o hr, addedValues_fail _ _ _ _ hr]

/-- The value of the first successful call with the alias. -/
def addedUnder (a : String) : List (Op V) → List (Except PyErr Bool) → Option V
  | .addItem b v :: os, .ok true :: rs
  | .addSuppl b v :: os, .ok true :: rs
  | .makeSuppl b v :: os, .ok true :: rs => if b = a then some v else addedUnder a os rs
  | _ :: os, _ :: rs => addedUnder a os rs
  | _, _ => none

omit [DecidableEq V] in
theorem addedUnder_fail (a : String) (o : Op V) (os : List (Op V)) (r : Except PyErr Bool)
    (rs : List (Except PyErr Bool)) (h : r ≠ .ok true) :
    addedUnder a (o :: os) (r :: rs) = addedUnder a os rs := by
  cases o <;> cases r with
  | error e => rfl
  | ok b => cases b with
    | true => exact absurd rfl h
    | false => rfl

/-- `m` says which aliases have been given to which values. -/
def Given (s : Inventory V) (m : String → Option V) : Prop :=
  ∀ a, (m a = none → a ∉ s.itemAliases ∧ a ∉ s.supplAliases) ∧
    ∀ v, m a = some v → (a ∈ s.itemAliases ∨ a ∈ s.supplAliases) ∧ (a, Field.val v) ∈ s.dict

omit [DecidableEq V] in
theorem given_extend {s t : Inventory V} {m : String → Option V} {b : String} {v : V} (h : Given s m)
    (hk : s.hasKey b = false) (hd : t.dict = s.dict ++ [(b, .val v)])
    (hal : (t.itemAliases = s.itemAliases ++ [b] ∧ t.supplAliases = s.supplAliases) ∨
      (t.itemAliases = s.itemAliases ∧ t.supplAliases = s.supplAliases ++ [b])) :
    Given t (fun a => (m a).or (if b = a then some v else none)) := by
  intro a
  obtain ⟨h1, h2⟩ := h a
  simp only
  cases hm : m a with
  | some u =>
    obtain ⟨h3, h4⟩ := h2 u hm
    refine ⟨by simp, fun v' hv => ?_⟩
    simp only [Option.some_or, Option.some.injEq] at hv
    subst hv
    refine ⟨?_, by rw [hd]; exact List.mem_append_left _ h4⟩
    rcases hal with ⟨e1, e2⟩ | ⟨e1, e2⟩ <;> rw [e1, e2] <;>
      exact h3.imp (fun h => by simp [h]) (fun h => by simp [h])
  | none =>
    obtain ⟨h3, h4⟩ := h1 hm
    by_cases hb : b = a
    · subst hb
      refine ⟨by simp, fun v' hv => ?_⟩
      simp only [Option.none_or, if_true, Option.some.injEq] at hv
      subst hv
      refine ⟨?_, by rw [hd]; simp⟩
      rcases hal with ⟨e1, _⟩ | ⟨_, e2⟩
      · left; rw [e1]; simp
      · right; rw [e2]; simp
    · refine ⟨fun _ => ?_, by simp [hb]⟩
      have hb' : ¬ a = b := fun e => hb e.symm
      rcases hal with ⟨e1, e2⟩ | ⟨e1, e2⟩ <;> rw [e1, e2] <;> simp [h3, h4, hb']

theorem given_run (s : Inventory V) (m : String → Option V) (h : Given s m) (os : List (Op V)) :
    Given (s.run os).1 (fun a => (m a).or (addedUnder a os (s.run os).2)) := by
  induction os generalizing s m with
  | nil => simpa [Inventory.run, addedUnder] using h
  | cons o os ih =>
    simp only [Inventory.run]
    by_cases hr : (s.step o).2 = .ok true
    · have ext : ∀ b v, (s.step o).1.dict = s.dict ++ [(b, .val v)] → s.hasKey b = false →
          (((s.step o).1.itemAliases = s.itemAliases ++ [b] ∧ (s.step o).1.supplAliases = s.supplAliases) ∨
          ((s.step o).1.itemAliases = s.itemAliases ∧ (s.step o).1.supplAliases = s.supplAliases ++ [b])) →
          (∀ a, addedUnder a (o :: os) ((s.step o).2 :: ((s.step o).1.run os).2) =
            if b = a then some v else addedUnder a os ((s.step o).1.run os).2) →
          Given ((s.step o).1.run os).1
            (fun a => (m a).or (addedUnder a (o :: os) ((s.step o).2 :: ((s.step o).1.run os).2))) := by
        intro b v hd hk hal hadd
        have := ih _ _ (given_extend h hk hd hal)
        intro a
        have := this a
        simp only at this ⊢
        have e : ((m a).or (if b = a then some v else none)).or (addedUnder a os ((s.step o).1.run os).2) =
            (m a).or (addedUnder a (o :: os) ((s.step o).2 :: ((s.step o).1.run os).2)) := by
          rw [hadd a]
          by_cases hb : b = a <;> cases m a <;> simp [hb]
        rw [← e]
        exact this
      cases o with
      | addItem a v =>
        rcases addItem_cases s a v with ⟨_, h2⟩ | ⟨hk, _, _, he⟩
        · exact absurd hr h2
        · exact ext a v (by simp [Inventory.step, he]) hk (by simp [Inventory.step, he])
            (by simp [Inventory.step, he, addedUnder])
      | addSuppl a v =>
        rcases addSuppl_cases s a v with ⟨_, h2⟩ | ⟨hk, he⟩
        · exact absurd hr h2
        · exact ext a v (by simp [Inventory.step, he]) hk (by simp [Inventory.step, he])
            (by simp [Inventory.step, he, addedUnder])
      | makeSuppl a v =>
        rcases makeSuppl_cases s a v with ⟨_, h2⟩ | ⟨hk, he⟩
        · exact absurd hr h2
        · exact ext a v (by simp [Inventory.step, he]) hk (by simp [Inventory.step, he])
            (by simp [Inventory.step, he, addedUnder])
    · intro a
      have := ih s m h a
      simp only at this ⊢
      rw [addedUnder_fail a _ _ _ _ hr, C41_failure_unchanged s o hr]
      exact this

/-- **C41** (`get`).  `get` returns the value of the successful call with that alias, and the
default if there is none; in particular never one of the inventory's own attributes. -/
theorem C41_get (valid : V → Bool) (extra : List String) (hx : (ownFields ++ extra).Nodup)
    (os : List (Op V)) (a : String) (d : V) (ha : a ∉ dataDescriptors)
    (hg : ((Inventory.new valid extra).run os).1.hasKey "get" = false) :
    ((Inventory.new valid extra).run os).1.get a d =
      .ok (some (.val ((addedUnder a os ((Inventory.new valid extra).run os).2).getD d))) := by
  have h0 : Given (Inventory.new valid extra) (fun _ => none) := by
    intro a; simp [Inventory.new]
  have h := given_run _ _ h0 os a
  simp only [Option.none_or] at h
  have hok := run_ok _ os (new_ok valid extra hx)
  generalize ((Inventory.new valid extra).run os) = r at *
  unfold Inventory.get Inventory.method
  rw [hg]
  cases hm : addedUnder a os r.2 with
  | none =>
    obtain ⟨h1, h2⟩ := h.1 hm
    simp [h1, h2]
  | some v =>
    obtain ⟨h1, h2⟩ := h.2 v hm
    have : (r.1.itemAliases.contains a || r.1.supplAliases.contains a) = true := by
      simpa only [Bool.or_eq_true, List.contains_iff_mem] using h1
    simp only [this, if_true]
    unfold Inventory.getattr
    rw [if_neg ha, find_of_nodup hok.nodup h2]
    simp

example : ((Inventory.new (V := Nat) (fun _ => true)).run [.addItem "a" 1, .addItem "a" 2]).1.get "a" 0 =
      .ok (some (.val 1)) ∧
    ((Inventory.new (V := Nat) (fun _ => true)).run [.addItem "a" 1]).1.get "text" 0 =
      .ok (some (.val 0)) := ⟨by rfl, by rfl⟩

example : ((Inventory.new (V := Nat) (fun v => decide (v ≠ 0))).run
    [.addItem "a" 1, .makeSuppl "b" 2, .addItem "c" 1, .addItem "b" 3, .addItem "d" 0,
     .addItem "e" 4]) |>.1.items = [1, 4] := by decide

example : ReachableInv ((Inventory.new (V := Nat) (fun _ => true)).run [.addItem "a" 1]).1 :=
  ⟨_, [], _, by decide, rfl⟩

/-- Nothing in the inventory hides one of its methods. -/
def MethodsVisible (s : Inventory V) : Prop :=
  ∀ m ∈ ["add_item", "valid_item", "_add_field", "add_suppl", "make_suppl", "get"],
    s.hasKey m = false

/-- **C41** (no exceptions).  If no alias is the name of a method, no call ever raises. -/
theorem C41_no_exception (s : Inventory V) (os : List (Op V)) (hs : MethodsVisible s)
    (ha : ∀ o ∈ os, o.alias ∉
      ["add_item", "valid_item", "_add_field", "add_suppl", "make_suppl", "get"]) :
    (∀ r ∈ (s.run os).2, ∃ b, r = .ok b) ∧ MethodsVisible (s.run os).1 := by
  induction os generalizing s with
  | nil => exact ⟨by simp [Inventory.run], hs⟩
  | cons o os ih =>
    have hstep : ∃ b, (s.step o).2 = .ok b := by
      have h1 := hs "add_item" (by simp)
      have h2 := hs "valid_item" (by simp)
      have h3 := hs "_add_field" (by simp)
      have h4 := hs "add_suppl" (by simp)
      have h5 := hs "make_suppl" (by simp)
      cases o with
      | addItem a v =>
        obtain ⟨b, hb, _⟩ := C41_add_item s a v (by
          intro m hm; apply hs; simp at hm ⊢; rcases hm with h | h | h <;> simp [h])
        exact ⟨b, hb⟩
      | addSuppl a v =>
        by_cases hk : s.hasKey a = true
        · exact ⟨false, by simp [Inventory.step, Inventory.addSuppl, Inventory.makeSuppl,
            Inventory.method, Inventory.addField, h3, h4, h5, hk]⟩
        · exact ⟨true, by simp [Inventory.step, Inventory.addSuppl, Inventory.makeSuppl,
            Inventory.method, Inventory.addField, h3, h4, h5, hk]⟩
      | makeSuppl a v =>
        by_cases hk : s.hasKey a = true
        · exact ⟨false, by simp [Inventory.step, Inventory.makeSuppl,
            Inventory.method, Inventory.addField, h3, h5, hk]⟩
        · exact ⟨true, by simp [Inventory.step, Inventory.makeSuppl,
            Inventory.method, Inventory.addField, h3, h5, hk]⟩
    have hvis : MethodsVisible (s.step o).1 := by
      intro m hm
      have ho := ha o (by simp)
      have hne : o.alias ≠ m := by rintro rfl; exact ho hm
      have hs' := hs m hm
      have ext : ∀ (v : V) (t : Inventory V), t.dict = s.dict ++ [(o.alias, .val v)] →
          t.hasKey m = false := by
        intro v t ht
        unfold Inventory.hasKey at hs' ⊢
        rw [ht, List.any_append, hs']
        simpa using hne
      cases o with
      | addItem a v =>
        simp only [Inventory.step]
        rcases addItem_cases s a v with ⟨h1, _⟩ | ⟨_, _, _, he⟩
        · rw [h1]; exact hs'
        · rw [he]; exact ext v _ rfl
      | addSuppl a v =>
        simp only [Inventory.step]
        rcases addSuppl_cases s a v with ⟨h1, _⟩ | ⟨_, he⟩
        · rw [h1]; exact hs'
        · rw [he]; exact ext v _ rfl
      | makeSuppl a v =>
        simp only [Inventory.step]
        rcases makeSuppl_cases s a v with ⟨h1, _⟩ | ⟨_, he⟩
        · rw [h1]; exact hs'
        · rw [he]; exact ext v _ rfl
    obtain ⟨i1, i2⟩ := ih (s.step o).1 hvis (fun o' h' => ha o' (by simp [h']))
    refine ⟨?_, i2⟩
    intro r hr
    simp only [Inventory.run, List.mem_cons] at hr
    rcases hr with rfl | hr
    · exact hstep
    · exact i1 r hr

example : MethodsVisible (Inventory.new (V := Nat) (fun _ => true)) := by
  unfold MethodsVisible; decide

/-- **C41** (disagreement).  The check for recurring aliases looks at the fields of the instance
only, so an item may take the name of a method: the addition succeeds, and afterwards `get` raises
for every alias, or no item can be added any more. -/
theorem C41_method_hidden (s : Inventory V) (h : MethodsVisible s) (v w : V) (hv : s.valid v = true)
    (hn : v ∉ s.items) :
    (s.addItem "get" v).2 = .ok true ∧
    (∀ a d, (s.addItem "get" v).1.get a d = .error .typeError) ∧
    (s.addItem "valid_item" v).2 = .ok true ∧
    ∀ a, ((s.addItem "valid_item" v).1.addItem a w).2 = .error .typeError := by
  have h1 := h "add_item" (by simp)
  have h2 := h "valid_item" (by simp)
  have h3 := h "_add_field" (by simp)
  have h6 := h "get" (by simp)
  have e1 : s.addItem "get" v = ({ s with
      dict := s.dict ++ [("get", .val v)]
      items := s.items ++ [v]
      itemAliases := s.itemAliases ++ ["get"] }, .ok true) := by
    simp [Inventory.addItem, Inventory.method, h1, h2, h3, h6, hv, hn, Inventory.addField]
  have e2 : s.addItem "valid_item" v = ({ s with
      dict := s.dict ++ [("valid_item", .val v)]
      items := s.items ++ [v]
      itemAliases := s.itemAliases ++ ["valid_item"] }, .ok true) := by
    simp [Inventory.addItem, Inventory.method, h1, h2, h3, hv, hn, Inventory.addField]
  refine ⟨by rw [e1], ?_, by rw [e2], ?_⟩
  · intro a d
    rw [e1]
    simp [Inventory.get, Inventory.method, Inventory.hasKey]
  · intro a
    rw [e2]
    have hk : s.dict.any (fun p => p.1 == "add_item") = false := h1
    simp [Inventory.addItem, Inventory.method, Inventory.hasKey, List.any_append, hk]

end
end Nisaba.Props
