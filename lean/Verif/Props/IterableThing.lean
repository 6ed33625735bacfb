import Verif.Model.IterableThing
/-! # Properties of IterableThing and FstList (natural_translit/utils) -/
namespace Nisaba.Props.IterableThing
open Nisaba Nisaba.IterableThing

mutual
/-- All objects in an object, in the order in which a reader of its text meets them, each with the
iterables around it. -/
def walk (around : List Obj) : Obj → List (Obj × List Obj)
  | .nothing i => [(.nothing i, around)]
  | .str s => [(.str s, around)]
  | .atom c i => [(.atom c i, around)]
  | .iter c i es => (.iter c i es, around) :: walkAll (.iter c i es :: around) es

/-- `walk` for a list of objects. -/
def walkAll (around : List Obj) : List Obj → List (Obj × List Obj)
  | [] => []
  | o :: os => walk around o ++ walkAll around os
end

/-- The outermost valid objects in the order of the walk. -/
def outermost (valid : Obj → Bool) (l : List (Obj × List Obj)) : List Obj :=
  (l.filter fun x => valid x.1 && x.2.all fun o => !valid o).map Prod.fst

theorem outermost_append (valid : Obj → Bool) (l l' : List (Obj × List Obj)) :
    outermost valid (l ++ l') = outermost valid l ++ outermost valid l' := by
  simp [outermost]

theorem mem_walk_around : (∀ o around x, x ∈ walk around o → ∃ l, x.2 = l ++ around) ∧
    (∀ os around x, x ∈ walkAll around os → ∃ l, x.2 = l ++ around) := by
  refine ⟨fun o => ?_, fun os => ?_⟩
  · refine Obj.rec (motive_1 := fun o => ∀ around x, x ∈ walk around o → ∃ l, x.2 = l ++ around)
      (motive_2 := fun os => ∀ around x, x ∈ walkAll around os → ∃ l, x.2 = l ++ around)
      ?_ ?_ ?_ ?_ ?_ ?_ o
    · intro i around x h; simp [walk] at h; exact ⟨[], by simp [h]⟩
    · intro i around x h; simp [walk] at h; exact ⟨[], by simp [h]⟩
    · intro c i around x h; simp [walk] at h; exact ⟨[], by simp [h]⟩
    · intro c i es ih around x h
      simp only [walk, List.mem_cons] at h
      rcases h with rfl | h
      · exact ⟨[], rfl⟩
      · obtain ⟨l, hl⟩ := ih _ _ h
        exact ⟨l ++ [.iter c i es], by simp [hl]⟩
    · intro around x h; simp [walkAll] at h
    · intro o os ih1 ih2 around x h
      simp only [walkAll, List.mem_append] at h
      rcases h with h | h
      · exact ih1 _ _ h
      · exact ih2 _ _ h
  · refine Obj.rec_1 (motive_1 := fun o => ∀ around x, x ∈ walk around o → ∃ l, x.2 = l ++ around)
      (motive_2 := fun os => ∀ around x, x ∈ walkAll around os → ∃ l, x.2 = l ++ around)
      ?_ ?_ ?_ ?_ ?_ ?_ os
    · intro i around x h; simp [walk] at h; exact ⟨[], by simp [h]⟩
    · intro i around x h; simp [walk] at h; exact ⟨[], by simp [h]⟩
    · intro c i around x h; simp [walk] at h; exact ⟨[], by simp [h]⟩
    · intro c i es ih around x h
      simp only [walk, List.mem_cons] at h
      rcases h with rfl | h
      · exact ⟨[], rfl⟩
      · obtain ⟨l, hl⟩ := ih _ _ h
        exact ⟨l ++ [.iter c i es], by simp [hl]⟩
    · intro around x h; simp [walkAll] at h
    · intro o os ih1 ih2 around x h
      simp only [walkAll, List.mem_append] at h
      rcases h with h | h
      · exact ih1 _ _ h
      · exact ih2 _ _ h

/-- Nothing inside a valid object is outermost. -/
theorem outermost_inside {valid : Obj → Bool} {o : Obj} (hv : valid o = true) (around : List Obj)
    (os : List Obj) : outermost valid (walkAll (o :: around) os) = [] := by
  unfold outermost
  rw [List.map_eq_nil_iff, List.filter_eq_nil_iff]
  intro x hx
  obtain ⟨l, hl⟩ := mem_walk_around.2 _ _ _ hx
  simp [hl, hv]

theorem addItem_eq {valid : Obj → Bool} (o : Obj) : ∀ (items around : List Obj),
    (∀ x ∈ around, valid x = false) →
    addItem valid items o = items ++ outermost valid (walk around o) := by
  have leaf : ∀ (o : Obj) (items around : List Obj), (∀ x ∈ around, valid x = false) →
      (if valid o then items ++ [o] else items) = items ++ outermost valid [(o, around)] := by
    intro o items around ha
    have : (around.all fun o => !valid o) = true := by simpa using ha
    by_cases h : valid o
    · simp only [h, if_true, outermost, List.filter_cons, this, Bool.and_self, List.filter_nil,
        List.map_cons, List.map_nil]
    · simp [outermost, h]
  refine Obj.rec (motive_1 := fun o => ∀ (items around : List Obj), (∀ x ∈ around, valid x = false) →
      addItem valid items o = items ++ outermost valid (walk around o))
    (motive_2 := fun os => ∀ (items around : List Obj), (∀ x ∈ around, valid x = false) →
      addAll valid items os = items ++ outermost valid (walkAll around os)) ?_ ?_ ?_ ?_ ?_ ?_ o
  · intro i items around ha
    rw [addItem, walk, leaf _ _ _ ha]
  · intro i items around ha
    rw [addItem, walk, leaf _ _ _ ha]
  · intro c i items around ha
    rw [addItem, walk, leaf _ _ _ ha]
  · intro c i es ih items around ha
    rw [addItem, walk, show ∀ (x : Obj × List Obj) l, x :: l = [x] ++ l from fun _ _ => rfl,
      outermost_append, ← List.append_assoc, ← leaf _ _ _ ha]
    by_cases h : valid (.iter c i es)
    · rw [if_pos h, if_pos h, outermost_inside h, List.append_nil]
    · rw [if_neg h, if_neg h]
      refine ih _ _ ?_
      intro x hx
      rcases List.mem_cons.1 hx with rfl | hx
      · simpa using h
      · exact ha x hx
  · intro items around _
    simp [addAll, walkAll, outermost]
  · intro o os ih1 ih2 items around ha
    rw [addAll, walkAll, outermost_append, ih2 _ _ ha, ih1 _ _ ha, List.append_assoc]

theorem addAll_eq (valid : Obj → Bool) (os items : List Obj) :
    addAll valid items os = items ++ outermost valid (walkAll [] os) := by
  induction os generalizing items with
  | nil => simp [addAll, walkAll, outermost]
  | cons o os ih => rw [addAll, walkAll, outermost_append, ih, addItem_eq o _ [] (by simp), List.append_assoc]

/-- C103: the items added to an iterable are, in order, the outermost objects in the arguments that
are valid items of it: every argument that is not valid is opened if it is an iterable other than a
string and discarded otherwise, to any depth; the items that were there stay. -/
theorem C103_items (t : Thing) (args : List Obj) :
    (t.add args).items = t.items ++ outermost t.validItem (walkAll [] args) ∧
      (t.add args).cls = t.cls ∧ (t.add args).itemType = t.itemType :=
  ⟨addAll_eq _ _ _, rfl, rfl⟩

/-- C103: adding arguments one after the other or at once makes no difference. -/
theorem C103_add_add (t : Thing) (a b : List Obj) : (t.add a).add b = t.add (a ++ b) := by
  have h : ∀ a b : List Obj, walkAll [] (a ++ b) = walkAll [] a ++ walkAll [] b := by
    intro a b
    induction a with
    | nil => simp [walkAll]
    | cons x a ih => simp [walkAll, ih]
  unfold Thing.add
  congr 1
  have hv : ∀ l, Thing.validItem { t with items := l } = t.validItem := fun _ => rfl
  simp only [addAll_eq, hv, h, outermost_append, List.append_assoc]

/-- C103: an untyped iterable built by the class never holds an instance of `Nothing` or of its own
class. -/
theorem C103_untyped (cls : Nat) (calls : List (List Obj)) :
    ∀ o ∈ (calls.foldl Thing.add (Thing.make cls none [])).items,
      o.isNothing = false ∧ o.cls ≠ some cls := by
  have : ∀ (calls : List (List Obj)) (t : Thing), t.cls = cls → t.itemType = none →
      (∀ o ∈ t.items, o.isNothing = false ∧ o.cls ≠ some cls) →
      ∀ o ∈ (calls.foldl Thing.add t).items, o.isNothing = false ∧ o.cls ≠ some cls := by
    intro calls
    induction calls with
    | nil => intro t _ _ h; exact h
    | cons a calls ih =>
      intro t hc ht h
      refine ih (t.add a) hc ht ?_
      intro o ho
      rw [(C103_items t a).1, List.mem_append] at ho
      rcases ho with ho | ho
      · exact h o ho
      · simp only [outermost, List.mem_map, List.mem_filter, Bool.and_eq_true] at ho
        obtain ⟨x, ⟨_, hv, _⟩, rfl⟩ := ho
        simpa [Thing.validItem, ht, hc] using hv
  refine this calls _ rfl rfl ?_
  simp [Thing.make, Thing.add, addAll]

/-- C103: an iterable added to an untyped iterable of its class contributes exactly its items, so
that copies are equal. -/
theorem C103_copy (cls id : Nat) (calls : List (List Obj)) :
    (Thing.make cls none [(calls.foldl Thing.add (Thing.make cls none [])).toObj id]).items =
      (calls.foldl Thing.add (Thing.make cls none [])).items := by
  have hu := C103_untyped cls calls
  have hcls : ∀ (calls : List (List Obj)) (t : Thing), (calls.foldl Thing.add t).cls = t.cls := by
    intro calls
    induction calls with
    | nil => intro t; rfl
    | cons a calls ih => intro t; exact ih _
  have hc : (calls.foldl Thing.add (Thing.make cls none [])).cls = cls := hcls _ _
  unfold Thing.toObj
  rw [hc]
  generalize (calls.foldl Thing.add (Thing.make cls none [])).items = l at hu
  have hv : ∀ (l acc : List Obj), (∀ o ∈ l, o.isNothing = false ∧ o.cls ≠ some cls) →
      addAll (Thing.validItem { cls := cls, itemType := none, items := [] }) acc l = acc ++ l := by
    intro l
    induction l with
    | nil => intro acc _; simp [addAll]
    | cons o l ih =>
      intro acc h
      have ho : Thing.validItem { cls := cls, itemType := none, items := [] } o = true := by
        have := h o (List.mem_cons_self ..)
        simp [Thing.validItem, this]
      rw [addAll, show addItem _ acc o = acc ++ [o] by cases o <;> simp [addItem, ho],
        ih _ (fun x hx => h x (List.mem_cons_of_mem _ hx))]
      simp
  unfold Thing.make Thing.add
  simp only [addAll, addItem]
  rw [if_neg (by simp [Thing.validItem, Obj.cls]), hv l [] hu, List.nil_append]

/-- The example of the documentation: `IterableThing(iterable1, 2, [3, 4], '567', MISSING)`, where
class 0 is `IterableThing`, 1 is `int` and 2 is `list`. -/
example :
    (Thing.make 0 none [(Thing.make 0 none [.atom 1 0, .atom 1 1]).toObj 9, .atom 1 2,
      .iter 2 0 [.atom 1 3, .atom 1 4], .str [53, 54, 55], .nothing 0]).items =
    [.atom 1 0, .atom 1 1, .atom 1 2, .iter 2 0 [.atom 1 3, .atom 1 4], .str [53, 54, 55]] := by
  simp [Thing.make, Thing.add, addAll, addItem, Thing.validItem, Obj.isNothing, Obj.cls, Thing.toObj]

/-- C103: `item` returns what Python's indexing would, for indices from `-len` to `len - 1`, and the
default for all others. -/
theorem C103_item (t : Thing) (i : Int) (d : Obj) :
    t.item i d = (pyIndex t.items i).getD d ∧
      (∀ k : Nat, (h : k < t.items.length) → t.item k d = t.items[k] ∧
        t.item (k - t.items.length) d = t.items[k]) ∧
      ((i < -t.items.length ∨ (t.items.length : Int) ≤ i) → t.item i d = d) := by
  refine ⟨?_, ?_, ?_⟩
  · unfold Thing.item
    split
    · rfl
    · rename_i h
      unfold pyIndex
      by_cases h0 : 0 ≤ i
      · rw [if_pos h0, List.getElem?_eq_none (by omega)]; rfl
      · rw [if_neg h0, if_neg (by omega)]; rfl
  · intro k hk
    constructor
    · unfold Thing.item pyIndex
      rw [if_pos (by omega), if_pos (by omega), Int.toNat_natCast, List.getElem?_eq_getElem hk]
      rfl
    · unfold Thing.item pyIndex
      rw [if_pos (by omega), if_neg (by omega), if_pos (by omega)]
      have : ((t.items.length : Int) + (k - t.items.length)).toNat = k := by omega
      rw [this, List.getElem?_eq_getElem hk]
      rfl
  · intro h
    unfold Thing.item
    rw [if_neg (by omega)]

example : (⟨0, none, [.atom 1 5, .atom 1 6]⟩ : Thing).item (-1) (.nothing 2) = .atom 1 6 := by
  simp [Thing.item, pyIndex]

/-! ## FstList -/

/-- The transducers in arguments, from left to right; strings stand for their acceptors. -/
inductive Fsts : List Arg → List Rel → Prop
  | nil : Fsts [] []
  | fst {r : Rel} {as : List Arg} {l : List Rel} : Fsts as l → Fsts (.fst r :: as) (r :: l)
  | str {s : Str} {as : List Arg} {l : List Rel} :
      Fsts as l → Fsts (.str s :: as) ((fun x y => x = s ∧ y = s) :: l)
  | other {as : List Arg} {l : List Rel} : Fsts as l → Fsts (.other :: as) l
  | iter {es as : List Arg} {l l' : List Rel} :
      Fsts es l → Fsts as l' → Fsts (.iter es :: as) (l ++ l')

theorem fsts_total (as : List Arg) : ∀ items, ∃ l, Fsts as l ∧ fstAdd items as = items ++ l ∧
    ∀ items', fstAdd items' as = items' ++ l := by
  refine Arg.rec_1
    (motive_1 := fun a => ∃ l, (∀ as l', Fsts as l' → Fsts (a :: as) (l ++ l')) ∧
      ∀ items, fstAddItem items a = items ++ l)
    (motive_2 := fun as => ∀ items : List Rel, ∃ l, Fsts as l ∧ fstAdd items as = items ++ l ∧
      ∀ items', fstAdd items' as = items' ++ l) ?_ ?_ ?_ ?_ ?_ ?_ as
  · intro r
    exact ⟨[r], fun _ _ h => .fst h, fun _ => by rw [fstAddItem]⟩
  · intro s
    exact ⟨[accep s], fun _ _ h => .str h, fun _ => by rw [fstAddItem]⟩
  · exact ⟨[], fun _ _ h => .other h, fun _ => by rw [fstAddItem, List.append_nil]⟩
  · intro es ih
    obtain ⟨l, h1, -, h3⟩ := ih []
    exact ⟨l, fun _ _ h => .iter h1 h, fun items => by rw [fstAddItem, h3]⟩
  · intro items
    exact ⟨[], .nil, by simp [fstAdd], by simp [fstAdd]⟩
  · intro a as ih1 ih2 items
    obtain ⟨l, h1, h2⟩ := ih1
    obtain ⟨l', h3, -, h5⟩ := ih2 []
    refine ⟨l ++ l', h1 _ _ h3, ?_, ?_⟩
    · rw [fstAdd, h5, h2, List.append_assoc]
    · intro items'
      rw [fstAdd, h5, h2, List.append_assoc]

theorem fsts_unique {as : List Arg} {l : List Rel} (h : Fsts as l) : ∀ {l'}, Fsts as l' → l = l' := by
  induction h with
  | nil => intro l' h; cases h; rfl
  | fst _ ih => intro l' h; cases h with | fst h => rw [ih h]
  | str _ ih => intro l' h; cases h with | str h => rw [ih h]
  | other _ ih => intro l' h; cases h with | other h => rw [ih h]
  | iter _ _ ih1 ih2 => intro l' h; cases h with | iter h1 h2 => rw [ih1 h1, ih2 h2]

/-- C104: a list of transducers holds the transducers and the acceptors of the strings in its
arguments, from left to right and whatever iterables they are nested in. -/
theorem C104_add (items : List Rel) (as : List Arg) (l : List Rel) :
    Fsts as l ↔ fstAdd items as = items ++ l := by
  obtain ⟨l', h1, h2, _⟩ := fsts_total as items
  constructor
  · intro h
    rw [h2, fsts_unique h h1]
  · intro h
    rw [h2] at h
    exact List.append_cancel_left h ▸ h1

example : Fsts [.str [97], .iter [.other, .iter [.str [98]]]]
    [(fun x y => x = [97] ∧ y = [97]), (fun x y => x = [98] ∧ y = [98])] :=
  .str (.iter (l' := []) (.other (.iter (l' := []) (.str .nil) .nil)) .nil)

/-- C104: the union relates what some transducer of the list relates; of the empty list nothing. -/
theorem C104_union (l : List Rel) (x y : Str) : fstUnion l x y ↔ ∃ r ∈ l, r x y := by
  induction l with
  | nil => simp [fstUnion]
  | cons r l ih =>
    cases l with
    | nil => simp [fstUnion]
    | cons r' l =>
      rw [fstUnion]
      · simp only [ih, List.mem_cons, exists_eq_or_imp]
      · simp

/-- The pieces of two texts are related one by one. -/
inductive Pieces : List Rel → Str → Str → Prop
  | nil : Pieces [] [] []
  | cons {r : Rel} {l : List Rel} {x y x' y' : Str} : r x y → Pieces l x' y' →
      Pieces (r :: l) (x ++ x') (y ++ y')

/-- C104: the concatenation relates texts that split into as many pieces as there are transducers,
piece by piece; of the empty list only the empty text to itself. -/
theorem C104_concat (l : List Rel) (x y : Str) : fstConcat l x y ↔ Pieces l x y := by
  have key : ∀ (l : List Rel) (a : Rel) (x y : Str), l.foldl catRel a x y ↔
      ∃ x₁ x₂ y₁ y₂, a x₁ y₁ ∧ Pieces l x₂ y₂ ∧ x = x₁ ++ x₂ ∧ y = y₁ ++ y₂ := by
    intro l
    induction l with
    | nil =>
      intro a x y
      constructor
      · intro h
        exact ⟨x, [], y, [], h, .nil, by simp, by simp⟩
      · rintro ⟨x₁, x₂, y₁, y₂, h, hp, rfl, rfl⟩
        cases hp
        simpa using h
    | cons r l ih =>
      intro a x y
      rw [List.foldl_cons, ih]
      constructor
      · rintro ⟨_, x₂, _, y₂, ⟨x₃, x₄, y₃, y₄, h1, h2, rfl, rfl⟩, hp, rfl, rfl⟩
        exact ⟨x₃, x₄ ++ x₂, y₃, y₄ ++ y₂, h1, .cons h2 hp, by simp, by simp⟩
      · rintro ⟨x₁, _, y₁, _, h1, hp, rfl, rfl⟩
        cases hp with
        | cons h2 hp =>
          exact ⟨_, _, _, _, ⟨_, _, _, _, h1, h2, rfl, rfl⟩, hp, by simp, by simp⟩
  unfold fstConcat
  rw [key]
  constructor
  · rintro ⟨x₁, x₂, y₁, y₂, ⟨rfl, rfl⟩, hp, rfl, rfl⟩
    exact hp
  · intro h
    exact ⟨[], x, [], y, ⟨rfl, rfl⟩, h, rfl, rfl⟩

/-- The texts between the stages of a cascade. -/
inductive Cascade : List Rel → Str → Str → Prop
  | one {r : Rel} {x y : Str} : r x y → Cascade [r] x y
  | cons {r : Rel} {l : List Rel} {x y z : Str} : r x y → Cascade l y z → Cascade (r :: l) x z

/-- C104: the composition applies the transducers one after the other; of the empty list it accepts
nothing, so that an empty list is not neutral. -/
theorem C104_compose (l : List Rel) (x y : Str) : fstCompose l x y ↔ Cascade l x y := by
  unfold fstCompose
  induction l generalizing x with
  | nil => simp only [composeRels, false_iff]; intro h; cases h
  | cons r l ih =>
    cases l with
    | nil =>
      simp only [composeRels]
      constructor
      · exact .one
      · intro h
        cases h with
        | one h => exact h
        | cons _ h => cases h
    | cons r' l =>
      simp only [composeRels]
      constructor
      · rintro ⟨z, h1, h2⟩
        exact .cons h1 ((ih z).1 h2)
      · intro h
        cases h with
        | cons h1 h2 => exact ⟨_, h1, (ih _).2 h2⟩

/-- C104: the starred union relates texts that split into pieces related by members of the list. -/
theorem C104_union_star (l : List Rel) (x y : Str) :
    fstUnionStar l x y ↔ ∃ rs : List Rel, (∀ r ∈ rs, r ∈ l) ∧ Pieces rs x y := by
  unfold fstUnionStar
  constructor
  · intro h
    induction h with
    | nil => exact ⟨[], by simp, .nil⟩
    | cons h _ ih =>
      obtain ⟨rs, h1, h2⟩ := ih
      obtain ⟨r, hr, h⟩ := (C104_union l _ _).1 h
      refine ⟨r :: rs, ?_, .cons h h2⟩
      intro q hq
      rcases List.mem_cons.1 hq with rfl | hq
      · exact hr
      · exact h1 q hq
  · rintro ⟨rs, h1, h2⟩
    induction h2 with
    | nil => exact .nil
    | cons h _ ih =>
      exact .cons ((C104_union l _ _).2 ⟨_, h1 _ (List.mem_cons_self ..), h⟩)
        (ih (fun r hr => h1 r (List.mem_cons_of_mem _ hr)))

example : Pieces [accep [97], fun x y => x = [98] ∧ y = [99, 99]] [97, 98] [97, 99, 99] :=
  Pieces.cons (r := accep [97]) (x := [97]) (y := [97]) ⟨rfl, rfl⟩
    (Pieces.cons (r := fun x y => x = [98] ∧ y = [99, 99]) (x := [98]) (y := [99, 99]) ⟨rfl, rfl⟩ .nil)

end Nisaba.Props.IterableThing
