import Verif.Model.SymDoc
/-!
# Lemmas on the description of a symbol inventory
-/
namespace Nisaba.Symbol
open Nisaba.Inv

/-! ### Sorted keys -/

theorem mem_insertKey (k i : Nat) (ks : List Nat) : i ∈ insertKey k ks ↔ i = k ∨ i ∈ ks := by
  induction ks with
  | nil => simp [insertKey]
  | cons j js ih =>
    unfold insertKey
    split
    · simp
    · split
      · rename_i h; subst h; simp
      · simp only [List.mem_cons, ih]
        constructor
        · rintro (h | h | h)
          · exact .inr (.inl h)
          · exact .inl h
          · exact .inr (.inr h)
        · rintro (h | h | h)
          · exact .inr (.inl h)
          · exact .inl h
          · exact .inr (.inr h)

theorem insertKey_sorted (k : Nat) (ks : List Nat) (h : ks.Pairwise (· < ·)) :
    (insertKey k ks).Pairwise (· < ·) := by
  induction ks with
  | nil => simp [insertKey]
  | cons j js ih =>
    obtain ⟨h1, h2⟩ := List.pairwise_cons.1 h
    unfold insertKey
    split
    · rename_i hk
      refine List.pairwise_cons.2 ⟨?_, h⟩
      intro x hx
      rcases List.mem_cons.1 hx with e | e
      · omega
      · have := h1 x e; omega
    · split
      · exact h
      · refine List.pairwise_cons.2 ⟨?_, ih h2⟩
        intro x hx
        rcases (mem_insertKey k x js).1 hx with e | e
        · omega
        · exact h1 x e

theorem mem_sortedKeys (d : Dict Nat) (i : Nat) : i ∈ sortedKeys d ↔ ∃ y, (i, y) ∈ d := by
  induction d with
  | nil => simp [sortedKeys]
  | cons p d ih =>
    obtain ⟨k, z⟩ := p
    show i ∈ insertKey k (sortedKeys d) ↔ _
    rw [mem_insertKey, ih]
    constructor
    · rintro (h | ⟨y, h⟩)
      · exact ⟨z, by simp [h]⟩
      · exact ⟨y, by simp [h]⟩
    · rintro ⟨y, h⟩
      rcases List.mem_cons.1 h with e | e
      · left; exact (Prod.mk.inj e).1
      · right; exact ⟨y, e⟩

theorem sortedKeys_sorted (d : Dict Nat) : (sortedKeys d).Pairwise (· < ·) := by
  induction d with
  | nil => simp [sortedKeys]
  | cons p d ih => exact insertKey_sorted _ _ ih

/-! ### Lookup -/

theorem dict_get_mem {d : Dict Nat} {k : Nat} {y : Sym} (h : d.get? k = some y) : (k, y) ∈ d := by
  unfold Dict.get? at h
  rw [Option.map_eq_some_iff] at h
  obtain ⟨p, hp, rfl⟩ := h
  have h1 := List.mem_of_find?_eq_some hp
  have h2 := List.find?_some hp
  simp at h2
  rw [← h2]; exact h1

theorem dict_get_some {d : Dict Nat} {k : Nat} {y : Sym} (h : (k, y) ∈ d) :
    ∃ z, d.get? k = some z := by
  unfold Dict.get?
  cases hf : d.find? (fun p => p.1 = k) with
  | some p => exact ⟨p.2, rfl⟩
  | none =>
    have := List.find?_eq_none.1 hf _ h
    simp at this

/-! ### What the dictionary of indices holds -/

structure Doc (s : SymInv) : Prop where
  entries : ∀ k y, (k, y) ∈ s.indexDict → k = y.index ∧ (y ∈ ctrl ∨ Val.sym y ∈ s.inv.items)
  controls : ∀ y ∈ ctrl, (y.index, y) ∈ s.indexDict
  back : s.inv.hasKey "_add_to_dicts" = false →
    ∀ y, Val.sym y ∈ s.inv.items → (y.index, y) ∈ s.indexDict

theorem Doc.congr {s t : SymInv} (h : Doc s) (hi : t.inv = s.inv)
    (hd : t.indexDict = s.indexDict) : Doc t := by
  constructor
  · rw [hi, hd]; exact h.entries
  · rw [hd]; exact h.controls
  · rw [hi, hd]; exact h.back

theorem addItem_items (i : Inventory Val) (a : String) (v : Val) :
    (∃ r, i.addItem a v = (i, r) ∧ r ≠ .ok true) ∨
    (∃ j, i.addItem a v = (j, .ok true) ∧ j.items = i.items ++ [v] ∧
      ∀ m, i.hasKey m = true → j.hasKey m = true) := by
  unfold Inventory.addItem
  split
  · left; exact ⟨_, rfl, by simp⟩
  split
  · left; exact ⟨_, rfl, by simp⟩
  split
  · left; exact ⟨_, rfl, by simp⟩
  split
  · left; exact ⟨_, rfl, by simp⟩
  unfold Inventory.addField
  by_cases hk : i.hasKey a = true
  · left
    simp only [hk, if_true]
    exact ⟨_, rfl, by simp⟩
  · right
    simp only [hk]
    refine ⟨_, rfl, rfl, ?_⟩
    intro m hm
    simp only [Inventory.hasKey, List.any_append] at hm ⊢
    rw [hm]; rfl

theorem addSymbol_doc {s : SymInv} (h : Doc s) (y : Sym) : Doc (s.addSymbol y).1 := by
  unfold SymInv.addSymbol
  split
  · exact h
  rcases addItem_items s.inv y.alias (.sym y) with ⟨r, e, hr⟩ | ⟨j, e, hi, hk⟩
  · rw [e]
    rcases r with r | b
    · exact h.congr rfl rfl
    · cases b
      · exact h.congr rfl rfl
      · exact absurd rfl hr
  · rw [e]
    simp only
    have sub : ∀ v, v ∈ s.inv.items → v ∈ j.items := by
      intro v hv; rw [hi]; exact List.mem_append_left _ hv
    cases hm : Inventory.method j "_add_to_dicts" with
    | error e =>
      simp only
      constructor
      · intro k z hz
        obtain ⟨a, b⟩ := h.entries k z hz
        exact ⟨a, b.imp_right (sub _)⟩
      · exact h.controls
      · intro hf
        simp only [Inventory.method] at hm
        simp only at hf
        rw [hf] at hm
        simp at hm
    | ok u =>
      simp only [SymInv.addToDicts]
      constructor
      · intro k z hz
        rcases List.mem_cons.1 hz with e | e
        · obtain ⟨rfl, rfl⟩ := Prod.mk.inj e
          exact ⟨rfl, .inr (by rw [hi]; simp)⟩
        · obtain ⟨a, b⟩ := h.entries k z e
          exact ⟨a, b.imp_right (sub _)⟩
      · intro z hz; exact List.mem_cons_of_mem _ (h.controls z hz)
      · intro hf z hz
        simp only at hz
        rw [hi] at hz
        rcases List.mem_append.1 hz with e | e
        · refine List.mem_cons_of_mem _ (h.back ?_ z e)
          cases hx : s.inv.hasKey "_add_to_dicts" with
          | false => rfl
          | true => rw [← hf]; exact (hk _ hx).symm
        · simp at e
          subst e
          exact List.mem_cons_self

theorem addSymbolAndAtomic_doc {s : SymInv} (h : Doc s) (y : Sym) :
    Doc (s.addSymbolAndAtomic y).1 := by
  unfold SymInv.addSymbolAndAtomic
  split
  · exact h
  have := addSymbol_doc h y
  split
  · rename_i e; rw [e] at this; exact this.congr rfl rfl
  · rename_i e; rw [e] at this; exact this

theorem rawFromUnknown_doc {s : SymInv} (h : Doc s) (c : Nat) : Doc (s.rawFromUnknown c).1 := by
  unfold SymInv.rawFromUnknown
  split
  · exact h
  split
  · simp only
    have h' : Doc { s with unknownCount := s.unknownCount + 1, next := s.next + 1 } :=
      h.congr rfl rfl
    have := addSymbol_doc h'
      { id := s.next, cls := 0, alias := unkAlias (s.unknownCount + 1),
        text := points ("<" ++ unkAlias (s.unknownCount + 1) ++ "_") ++ [c] ++ points ">",
        raw := [c], index := s.pre + (s.unknownCount + 1) }
    split
    · rename_i e; rw [e] at this; exact this
    · rename_i e; rw [e] at this; exact this
  · simp only
    have h' : Doc { s with next := s.next + 1 } := h.congr rfl rfl
    have := addSymbolAndAtomic_doc h'
      { id := s.next, cls := 1, alias := charAlias c, text := [c], raw := [c],
        index := graphemePrefix + c }
    split
    · rename_i e; rw [e] at this; exact this
    · rename_i e; rw [e] at this; exact this
    · rename_i e; rw [e] at this; exact this

theorem rawSymbol_doc {s : SymInv} (h : Doc s) (c : Nat) : Doc (s.rawSymbol c).1 := by
  unfold SymInv.rawSymbol
  split
  · exact h
  · exact rawFromUnknown_doc h c

theorem strToRaw_doc (t : List Nat) {s : SymInv} (h : Doc s) : Doc (s.strToRaw t).1 := by
  induction t generalizing s with
  | nil => exact h
  | cons c cs ih =>
    unfold SymInv.strToRaw
    have h1 := rawSymbol_doc h c
    split
    · rename_i e; rw [e] at h1; exact h1
    · rename_i e; rw [e] at h1
      have h2 := ih h1
      split
      · rename_i e; rw [e] at h2; exact h2
      · rename_i e; rw [e] at h2; exact h2

theorem makeSuppl_items (i : Inventory Val) (a : String) (v : Val) :
    (i.makeSuppl a v).1.items = i.items ∧
      ∀ m, i.hasKey m = true → (i.makeSuppl a v).1.hasKey m = true := by
  unfold Inventory.makeSuppl
  split
  · exact ⟨rfl, fun _ h => h⟩
  split
  · exact ⟨rfl, fun _ h => h⟩
  unfold Inventory.addField
  by_cases hk : i.hasKey a = true
  · simp only [hk, if_true]
    exact ⟨trivial, fun _ h => h⟩
  · simp only [hk]
    refine ⟨rfl, ?_⟩
    intro m hm
    simp only [Inventory.hasKey, Bool.false_eq_true, if_false, List.any_append] at hm ⊢
    rw [hm]; rfl

theorem step_doc {s : SymInv} (h : Doc s) (o : Op) : Doc (s.step o) := by
  cases o with
  | add y =>
    unfold SymInv.step
    simp only
    have h' : Doc { s with next := max s.next (y.id + 1) } := h.congr rfl rfl
    split
    · exact addSymbol_doc h' y
    · exact addSymbolAndAtomic_doc h' y
  | suppl a n =>
    obtain ⟨hi, hk⟩ := makeSuppl_items s.inv a (.obj n)
    show Doc { s with inv := (s.inv.makeSuppl a (.obj n)).1 }
    constructor
    · simp only [hi]; exact h.entries
    · exact h.controls
    · intro hf
      simp only [hi]
      refine h.back ?_
      cases hx : s.inv.hasKey "_add_to_dicts" with
      | false => rfl
      | true => rw [← hf]; exact (hk _ hx).symm
  | parse t =>
    show Doc (s.parse t).1
    unfold SymInv.parse
    split
    · exact h
    · exact strToRaw_doc t h

theorem run_doc (os : List Op) {s : SymInv} (h : Doc s) : Doc (s.run os) := by
  induction os generalizing s with
  | nil => exact h
  | cons o os ih => exact ih (step_doc h o)

theorem addToDicts_fold (l : List Sym) (s : SymInv) :
    (l.foldl SymInv.addToDicts s).inv = s.inv ∧
    (l.foldl SymInv.addToDicts s).indexDict =
      (l.map (fun y => (y.index, y))).reverse ++ s.indexDict := by
  induction l generalizing s with
  | nil => simp
  | cons y l ih =>
    obtain ⟨a, b⟩ := ih (s.addToDicts y)
    refine ⟨a, ?_⟩
    rw [List.foldl_cons, b]
    simp [SymInv.addToDicts]

theorem new_doc (kind : Kind) (valid : Val → Bool) (pre : Nat) :
    Doc (SymInv.new kind valid pre) := by
  have hd : (SymInv.new kind valid pre).indexDict = (ctrl.map (fun y => (y.index, y))).reverse := by
    unfold SymInv.new
    simp only [(addToDicts_fold _ _).2, List.append_nil]
  have hi : (SymInv.new kind valid pre).inv.items = [] := by
    unfold SymInv.new
    simp only [(addToDicts_fold _ _).1]
    unfold Inventory.addSuppl
    split
    · rfl
    · rw [(makeSuppl_items _ _ _).1]; rfl
  constructor
  · intro k y h
    rw [hd, List.mem_reverse, List.mem_map] at h
    obtain ⟨z, hz, e⟩ := h
    obtain ⟨rfl, rfl⟩ := Prod.mk.inj e
    exact ⟨rfl, .inl hz⟩
  · intro y hy
    rw [hd, List.mem_reverse, List.mem_map]
    exact ⟨y, hy, rfl⟩
  · intro _ y hy
    rw [hi] at hy
    cases hy

/-! ### The loop -/

/-- The symbols that the loop describes. -/
def shown (s : SymInv) (sc : Bool) (ks : List Nat) : List Sym :=
  (ks.map (fun i => (s.indexDict.get? i).getD unk)).filter (fun y => sc || !ctrl.contains y)

theorem indexLookup_ok (s : SymInv) (h1 : s.inv.hasKey "index_lookup" = false)
    (h2 : s.inv.hasKey "lookup" = false) (i : Nat) :
    s.indexLookup i = .ok ((s.indexDict.get? i).getD unk) := by
  simp [SymInv.indexLookup, Inventory.method, h1, h2]

theorem describeAll_eq (s : SymInv) (h1 : s.inv.hasKey "index_lookup" = false)
    (h2 : s.inv.hasKey "lookup" = false) (describe : Sym → List Nat) (sc : Bool) (ks : List Nat) :
    s.describeAll describe sc ks = .ok ((shown s sc ks).flatMap
      (fun y => points "### " ++ describe y ++ points "\n")) := by
  induction ks with
  | nil => rfl
  | cons i is ih =>
    unfold SymInv.describeAll
    rw [indexLookup_ok s h1 h2]
    simp only [ih]
    unfold shown
    simp only [List.map_cons]
    by_cases hc : (!sc && ctrl.contains ((s.indexDict.get? i).getD unk)) = true
    · rw [if_pos hc, List.filter_cons_of_neg]
      simpa using hc
    · rw [if_neg hc, List.filter_cons_of_pos]
      · rw [List.flatMap_cons]
      · rcases sc with _ | _
        · simpa using hc
        · rfl

theorem unk_ctrl : unk ∈ ctrl := by decide

theorem shown_sorted {s : SymInv} (h : Doc s) (sc : Bool) :
    (shown s sc (sortedKeys s.indexDict)).Pairwise (fun x y => x.index < y.index) := by
  unfold shown
  refine List.Pairwise.filter _ ?_
  rw [List.pairwise_map]
  have key : ∀ i ∈ sortedKeys s.indexDict, ((s.indexDict.get? i).getD unk).index = i := by
    intro i hi
    obtain ⟨y, hy⟩ := (mem_sortedKeys _ _).1 hi
    obtain ⟨z, hz⟩ := dict_get_some hy
    rw [hz]
    exact ((h.entries _ _ (dict_get_mem hz)).1).symm
  refine (sortedKeys_sorted s.indexDict).imp_of_mem ?_
  intro a b ha hb hab
  rw [key a ha, key b hb]; exact hab

theorem mem_shown {s : SymInv} (h : Doc s) (sc : Bool) (y : Sym) :
    y ∈ shown s sc (sortedKeys s.indexDict) ↔
      ((y ∈ ctrl ∧ sc = true) ∨ (y ∉ ctrl ∧ Val.sym y ∈ s.inv.items)) ∧
        (s.indexDict.get? y.index).getD unk = y := by
  unfold shown
  rw [List.mem_filter, List.mem_map]
  constructor
  · rintro ⟨⟨i, hi, e⟩, hc⟩
    obtain ⟨z, hz⟩ := (mem_sortedKeys _ _).1 hi
    obtain ⟨w, hw⟩ := dict_get_some hz
    rw [hw] at e
    simp only [Option.getD_some] at e
    subst e
    obtain ⟨rfl, hm⟩ := h.entries _ _ (dict_get_mem hw)
    refine ⟨?_, by rw [hw]; rfl⟩
    by_cases hy : w ∈ ctrl
    · left; refine ⟨hy, ?_⟩
      simpa [hy] using hc
    · right; exact ⟨hy, hm.resolve_left hy⟩
  · rintro ⟨hm, e⟩
    have hin : ∃ z, (y.index, z) ∈ s.indexDict := by
      rcases hm with ⟨hc, _⟩ | ⟨hc, _⟩
      · exact ⟨y, h.controls y hc⟩
      · cases hg : s.indexDict.get? y.index with
        | none =>
          rw [hg] at e
          exact absurd (e ▸ unk_ctrl) hc
        | some z => exact ⟨z, dict_get_mem hg⟩
    refine ⟨⟨y.index, (mem_sortedKeys _ _).2 hin, e⟩, ?_⟩
    rcases hm with ⟨_, hs⟩ | ⟨hc, _⟩
    · simp [hs]
    · simp [hc]

end Nisaba.Symbol
