import Verif.Model.Operation
import Verif.Props.Inventory
/-!
# C46: indices of operations
-/
namespace Nisaba.Props
open Nisaba Nisaba.Inv Nisaba.Operation

/-- The index of the operation at position `n` (from 0): count from the prefix and leave out the
multiples of ten. -/
def opIndex (pre n : Nat) : Nat := pre + (n + 1) + n / 9

structure OpOk (s : OpInv) : Prop where
  ok : InvOk s.inv
  ids : ∀ (n id : Nat), s.inv.items[n]? = some id → s.heap[id]?.map Oper.index = some (opIndex s.pre n)
  aliases : ∀ (n id : Nat), s.inv.items[n]? = some id →
    s.heap[id]?.map Oper.alias = s.inv.itemAliases[n]?
  dict : s.indexDict = s.inv.items.mapIdx (fun n id => (opIndex s.pre n, id))
  valid : ∀ v, s.inv.valid v = true

theorem addItem_false {V : Type} [DecidableEq V] (s : Inventory V) (a : String) (v : V)
    (hv : s.valid v = true) (hn : v ∉ s.items) (h : (s.addItem a v).2 = .ok false) :
    s.hasKey a = true := by
  unfold Inventory.addItem at h
  split at h
  · simp at h
  · split at h
    · simp at h
    · split at h
      · next hc => simp [hv, hn] at hc
      · split at h
        · simp at h
        · cases hk : s.hasKey a with
          | true => rfl
          | false => simp [Inventory.addField, hk] at h

theorem foldl_max_eq (ks : List Nat) (k M : Nat) (hle : ∀ x ∈ k :: ks, x ≤ M)
    (hm : M ∈ k :: ks) : ks.foldl max k = M := by
  induction ks generalizing k with
  | nil => simp at hm; simp [hm]
  | cons a ks ih =>
    rw [List.foldl_cons]
    apply ih
    · intro x hx
      rcases List.mem_cons.1 hx with rfl | hx
      · have := hle k (by simp); have := hle a (by simp); omega
      · exact hle x (by simp [hx])
    · have := hle k (by simp)
      have := hle a (by simp)
      rcases List.mem_cons.1 hm with rfl | hm
      · have : max M a = M := by omega
        simp [this]
      · rcases List.mem_cons.1 hm with rfl | hm
        · have : max k M = M := by omega
          simp [this]
        · exact List.mem_cons_of_mem _ hm

theorem nextIndex_eq (s : OpInv) (h : OpOk s) (hp : 10 ∣ s.pre)
    (hm : s.inv.hasKey "_next_index" = false) :
    s.nextIndex = .ok (opIndex s.pre s.inv.items.length) := by
  unfold OpInv.nextIndex Inventory.method
  rw [hm]
  simp only [Bool.false_eq_true, if_false]
  split
  · next h0 => simp [opIndex, h0]
  · split
    · next h1 => simp [opIndex, h1]
    · next h0 h1 =>
      have hkeys : s.indexDict.map (·.1) = (List.range s.inv.items.length).map (opIndex s.pre) := by
        rw [h.dict]
        apply List.ext_getElem (by simp)
        intro n h1 h2
        simp
      rw [hkeys]
      obtain ⟨L, hL⟩ : ∃ L, s.inv.items.length = L + 1 := ⟨s.inv.items.length - 1, by omega⟩
      have hmem : opIndex s.pre L ∈ (List.range s.inv.items.length).map (opIndex s.pre) :=
        List.mem_map.2 ⟨L, by simp [hL], rfl⟩
      have hle : ∀ x ∈ (List.range s.inv.items.length).map (opIndex s.pre),
          x ≤ opIndex s.pre L := by
        intro x hx
        obtain ⟨n, hn, rfl⟩ := List.mem_map.1 hx
        have hn' : n ≤ L := by
          have := List.mem_range.1 hn; omega
        unfold opIndex
        have : n / 9 ≤ L / 9 := Nat.div_le_div_right hn'
        omega
      generalize hks : (List.range s.inv.items.length).map (opIndex s.pre) = ks at hmem hle ⊢
      cases ks with
      | nil => simp at hmem
      | cons k ks =>
        simp only []
        rw [foldl_max_eq ks k _ hle hmem]
        congr 1
        obtain ⟨q, hq⟩ := hp
        unfold opIndex
        rw [hL]
        split <;> omega

theorem put_new (d : List (Nat × Nat)) (k v : Nat) (h : ∀ p ∈ d, p.1 ≠ k) :
    put d k v = d ++ [(k, v)] := by
  unfold put
  rw [if_neg]
  simp only [List.any_eq_true, beq_iff_eq, not_exists, not_and]
  exact fun p hp => h p hp

theorem opIndex_lt {pre m n : Nat} (h : m < n) : opIndex pre m < opIndex pre n := by
  unfold opIndex
  have : m / 9 ≤ n / 9 := Nat.div_le_div_right (by omega)
  omega

/-- What `_make_operation` does. -/
theorem makeOperation_spec (s : OpInv) (a : String) (c : Rat) (h : OpOk s) (hp : 10 ∣ s.pre)
    (s' : OpInv) (id : Nat) (hs : s.makeOperation a c = .ok (s', id)) :
    OpOk s' ∧ s'.pre = s.pre ∧ id = s.heap.length ∧
    s'.heap = s.heap ++ [{ alias := a, cost := c, index := opIndex s.pre s.inv.items.length,
                           mat := id, par := id, unx := id }] ∧
    ((s.inv.hasKey a = false ∧ s'.inv.items = s.inv.items ++ [id]) ∨
     (s.inv.hasKey a = true ∧ s'.inv = s.inv)) := by
  unfold OpInv.makeOperation at hs
  split at hs
  · simp at hs
  · split at hs
    · simp at hs
    · next i hi =>
      have hkey : s.inv.hasKey "_next_index" = false := by
        cases hk : s.inv.hasKey "_next_index" with
        | false => rfl
        | true => simp [OpInv.nextIndex, Inventory.method, hk] at hi
      rw [nextIndex_eq s h hp hkey] at hi
      obtain rfl := Except.ok.inj hi
      have hfresh : s.heap.length ∉ s.inv.items := by
        intro hm
        obtain ⟨n, hn, hn'⟩ := List.getElem_of_mem hm
        have := h.ids n _ (by rw [List.getElem?_eq_getElem hn, hn'])
        simp at this
      simp only [] at hs
      have old : ∀ id', id' < s.heap.length → ∀ o : Oper,
          (s.heap ++ [o])[id']? = s.heap[id']? := by
        intro id' hid' o
        rw [List.getElem?_append_left hid']
      have hlt : ∀ (n id' : Nat), s.inv.items[n]? = some id' → id' < s.heap.length := by
        intro n id' hn
        have := h.ids n id' hn
        by_cases hlt : id' < s.heap.length
        · exact hlt
        · rw [List.getElem?_eq_none (by omega)] at this; simp at this
      rcases addItem_cases s.inv a s.heap.length with ⟨h1, h2⟩ | ⟨hk, _, _, he⟩
      · split at hs
        · simp at hs
        · next inv heq => rw [heq] at h2; simp at h2
        · next inv heq =>
          rw [heq] at h1
          simp only [] at h1
          subst h1
          simp only [Except.ok.injEq, Prod.mk.injEq] at hs
          obtain ⟨rfl, rfl⟩ := hs
          have hkey : s.inv.hasKey a = true :=
            addItem_false s.inv a _ (h.valid _) hfresh (by rw [heq])
          refine ⟨⟨h.ok, ?_, ?_, h.dict, h.valid⟩, rfl, rfl, rfl, Or.inr ⟨hkey, rfl⟩⟩
          · intro n id' hn
            rw [old id' (hlt n id' hn)]; exact h.ids n id' hn
          · intro n id' hn
            rw [old id' (hlt n id' hn)]; exact h.aliases n id' hn
      · rw [he] at hs
        simp only [Except.ok.injEq, Prod.mk.injEq] at hs
        obtain ⟨rfl, rfl⟩ := hs
        have hput : put s.indexDict (opIndex s.pre s.inv.items.length) s.heap.length
            = s.indexDict ++ [(opIndex s.pre s.inv.items.length, s.heap.length)] := by
          apply put_new
          intro p hp'
          rw [h.dict] at hp'
          obtain ⟨n, hn, rfl⟩ := List.getElem_of_mem hp'
          simp only [List.length_mapIdx] at hn
          simp only [List.getElem_mapIdx]
          have := opIndex_lt (pre := s.pre) hn
          omega
        have hok : InvOk (s.inv.addItem a s.heap.length).1 := step_ok s.inv (.addItem a _) h.ok
        rw [he] at hok
        have hnew : ∀ n id', (s.inv.items ++ [s.heap.length])[n]? = some id' →
            (s.inv.items[n]? = some id') ∨ (n = s.inv.items.length ∧ id' = s.heap.length) := by
          intro n id' hn
          by_cases hlt : n < s.inv.items.length
          · rw [List.getElem?_append_left hlt] at hn; exact Or.inl hn
          · rw [List.getElem?_append_right (by omega)] at hn
            have : n - s.inv.items.length = 0 := by
              by_cases h0 : n - s.inv.items.length = 0
              · exact h0
              · rw [List.getElem?_eq_none (by simp; omega)] at hn; simp at hn
            rw [this] at hn
            simp at hn
            exact Or.inr ⟨by omega, hn.symm⟩
        refine ⟨⟨hok, ?_, ?_, ?_, h.valid⟩, rfl, rfl, rfl, Or.inl ⟨hk, rfl⟩⟩
        · intro n id' hn
          rcases hnew n id' hn with hn | ⟨rfl, rfl⟩
          · simp only []
            rw [old id' (hlt n id' hn)]; exact h.ids n id' hn
          · simp
        · intro n id' hn
          rcases hnew n id' hn with hn | ⟨rfl, rfl⟩
          · simp only []
            rw [old id' (hlt n id' hn)]
            have hn' : n < s.inv.itemAliases.length := by
              rw [h.ok.len]
              exact (List.getElem?_eq_some_iff.1 hn).1
            rw [List.getElem?_append_left hn']
            exact h.aliases n id' hn
          · simp only []
            rw [← h.ok.len, List.getElem?_append_right (by omega)]
            simp
        · simp only []
          rw [hput, h.dict, List.mapIdx_append]
          simp

/-- Linking changes no index and no alias. -/
theorem link_keeps {α : Type} (f : Oper → α)
    (hf : ∀ o m p u, f { o with mat := m, par := p, unx := u } = f o) (heap : List Oper)
    (m p u up i : Nat) :
    ((link heap m p u up)[i]?).map f = (heap[i]?).map f := by
  have key : ∀ (h : List Oper) (j : Nat) (g : Oper → Oper), (∀ o, f (g o) = f o) →
      ((h.modify j g)[i]?).map f = (h[i]?).map f := by
    intro h j g hg
    rw [List.getElem?_modify]
    cases h[i]? with
    | none => rfl
    | some o =>
      simp only [Option.map_eq_map, Option.map_some]
      split
      · simp [hg]
      · simp
  unfold link
  simp only []
  rw [key, key, key, key]
  all_goals intro o
  · exact hf o o.mat p u
  · exact hf o m o.par up
  · exact hf o m up o.unx
  · exact hf o m o.par o.unx

theorem OpOk.relink {s : OpInv} (h : OpOk s) (m p u up : Nat) :
    OpOk { s with heap := link s.heap m p u up } := by
  refine ⟨h.ok, ?_, ?_, h.dict, h.valid⟩
  · intro n id hn
    rw [← h.ids n id hn]
    exact link_keeps Oper.index (by intros; rfl) _ _ _ _ _ _
  · intro n id hn
    rw [← h.aliases n id hn]
    exact link_keeps Oper.alias (by intros; rfl) _ _ _ _ _ _

theorem modify_append_right {α : Type} (l r : List α) (i : Nat) (f : α → α) :
    (l ++ r).modify (l.length + i) f = l ++ r.modify i f := by
  induction l with
  | nil => simp
  | cons a l ih =>
    rw [List.length_cons, show l.length + 1 + i = (l.length + i) + 1 by omega]
    simp [ih]

theorem link_four (l : List Oper) (a b c d : Oper) :
    link (l ++ [a, b, c, d]) l.length (l.length + 1) (l.length + 2) (l.length + 3) =
    l ++ [{ a with par := l.length + 1, unx := l.length + 2 },
          { b with mat := l.length, unx := l.length + 3 },
          { c with mat := l.length, par := l.length + 3 },
          { d with mat := l.length }] := by
  unfold link
  have h0 := modify_append_right l [a, b, c, d] 0
  rw [Nat.add_zero] at h0
  simp only [h0, modify_append_right]
  rfl

/-- What the body of the loop of `from_args` leaves. -/
theorem addArg_spec (s : OpInv) (a : String) (c : Rat) (h : OpOk s) (hp : 10 ∣ s.pre) (s' : OpInv)
    (hs : s.addArg a c = .ok s') :
    OpOk s' ∧ s'.pre = s.pre ∧ s'.heap.length = s.heap.length + 4 ∧
    s'.inv.items.length ≤ s.inv.items.length + 4 ∧
    (∀ i, i < s.heap.length → s'.heap[i]? = s.heap[i]?) ∧
    ∃ i0 i1 i2 i3, s'.heap = s.heap ++
      [{ alias := a, cost := c, index := i0, mat := s.heap.length, par := s.heap.length + 1,
         unx := s.heap.length + 2 },
       { alias := "partial_" ++ a, cost := c, index := i1, mat := s.heap.length,
         par := s.heap.length + 1, unx := s.heap.length + 3 },
       { alias := "unexpected_" ++ a, cost := c + unexpectedPenalty, index := i2,
         mat := s.heap.length, par := s.heap.length + 3, unx := s.heap.length + 2 },
       { alias := "unexpected_partial_" ++ a, cost := c + unexpectedPenalty, index := i3,
         mat := s.heap.length, par := s.heap.length + 3, unx := s.heap.length + 3 }] := by
  unfold OpInv.addArg at hs
  split at hs
  · simp at hs
  · next s1 m h1 =>
    split at hs
    · simp at hs
    · next s2 p h2 =>
      split at hs
      · simp at hs
      · next s3 u h3 =>
        split at hs
        · simp at hs
        · next s4 up h4 =>
          obtain rfl := Except.ok.inj hs
          obtain ⟨o1, p1, e1, g1, c1⟩ := makeOperation_spec s a c h hp s1 m h1
          obtain ⟨o2, p2, e2, g2, c2⟩ := makeOperation_spec s1 _ c o1 (by rw [p1]; exact hp) s2 p h2
          obtain ⟨o3, p3, e3, g3, c3⟩ := makeOperation_spec s2 _ _ o2 (by rw [p2, p1]; exact hp) s3 u h3
          obtain ⟨o4, p4, e4, g4, c4⟩ := makeOperation_spec s3 _ _ o3
            (by rw [p3, p2, p1]; exact hp) s4 up h4
          have l1 : s1.heap.length = s.heap.length + 1 := by rw [g1]; simp
          have l2 : s2.heap.length = s.heap.length + 2 := by rw [g2]; simp [l1]
          have l3 : s3.heap.length = s.heap.length + 3 := by rw [g3]; simp [l2]
          have len : ∀ {x y : OpInv} {b : Bool} {k : String} {j : Nat},
              ((x.inv.hasKey k = false ∧ y.inv.items = x.inv.items ++ [j]) ∨
               (x.inv.hasKey k = true ∧ y.inv = x.inv)) →
              y.inv.items.length ≤ x.inv.items.length + 1 := by
            intro x y b k j h
            rcases h with ⟨_, h⟩ | ⟨_, h⟩
            · rw [h]; simp
            · rw [h]; omega
          have n1 := len (b := true) c1
          have n2 := len (b := true) c2
          have n3 := len (b := true) c3
          have n4 := len (b := true) c4
          rw [l1] at e2
          rw [l2] at e3
          rw [l3] at e4
          subst e1 e2 e3 e4
          have hheap := link_four s.heap
            { alias := a, cost := c, index := opIndex s.pre s.inv.items.length,
              mat := s.heap.length, par := s.heap.length, unx := s.heap.length }
            { alias := "partial_" ++ a, cost := c, index := opIndex s1.pre s1.inv.items.length,
              mat := s.heap.length + 1, par := s.heap.length + 1, unx := s.heap.length + 1 }
            { alias := "unexpected_" ++ a, cost := c + unexpectedPenalty,
              index := opIndex s2.pre s2.inv.items.length,
              mat := s.heap.length + 2, par := s.heap.length + 2, unx := s.heap.length + 2 }
            { alias := "unexpected_partial_" ++ a, cost := c + unexpectedPenalty,
              index := opIndex s3.pre s3.inv.items.length,
              mat := s.heap.length + 3, par := s.heap.length + 3, unx := s.heap.length + 3 }
          have g := g4
          rw [g3, g2, g1] at g
          simp only [List.append_assoc, List.cons_append, List.nil_append] at g
          rw [← g] at hheap
          refine ⟨o4.relink _ _ _ _, by simp [p4, p3, p2, p1], ?_, by simp; omega, ?_,
            _, _, _, _, hheap⟩
          · simp only []
            rw [hheap]; simp
          · intro i hi
            simp only []
            rw [hheap, List.getElem?_append_left hi]

/-- Group of the operation at a position, and its place in the group. -/
theorem addArgs_spec (args : List (String × Rat)) (s s' : OpInv) (h : OpOk s) (hp : 10 ∣ s.pre)
    (hs : s.addArgs args = .ok s') :
    OpOk s' ∧ s'.pre = s.pre ∧ s'.heap.length = s.heap.length + 4 * args.length ∧
    s'.inv.items.length ≤ s.inv.items.length + 4 * args.length ∧
    (∀ i, i < s.heap.length → s'.heap[i]? = s.heap[i]?) := by
  induction args generalizing s with
  | nil => obtain rfl := Except.ok.inj hs; exact ⟨h, rfl, by simp, by simp, by simp⟩
  | cons p args ih =>
    obtain ⟨a, c⟩ := p
    simp only [OpInv.addArgs] at hs
    split at hs
    · simp at hs
    · next s1 h1 =>
      obtain ⟨o1, p1, l1, n1, k1, _⟩ := addArg_spec s a c h hp s1 h1
      obtain ⟨o2, p2, l2, n2, k2⟩ := ih s1 o1 (by rw [p1]; exact hp) hs
      refine ⟨o2, p2.trans p1, by simp; omega, by simp; omega, ?_⟩
      intro i hi
      rw [k2 i (by omega), k1 i hi]

theorem newOp_ok (pre : Nat) : OpOk (OpInv.new pre) := by
  refine ⟨new_ok _ _ (by decide), ?_, ?_, rfl, fun _ => rfl⟩
  · intro n id h; simp [OpInv.new, Inventory.new] at h
  · intro n id h; simp [OpInv.new, Inventory.new] at h

/-! ## C46 -/

/-- **C46** (indices).  However many operations are defined and whatever their names, if
`from_args` returns, then the operation at position `n` of the inventory has the index
`prefix + (n + 1) + n / 9`; `index_lookup` of that index returns it, and every other index gives
the error operation. -/
theorem C46_indices (pre : Nat) (args : List (String × Rat)) (s : OpInv) (hp : 10 ∣ pre)
    (hs : fromArgs pre args = .ok s) :
    (∀ n id, s.inv.items[n]? = some id →
      (s.heap[id]?).map Oper.index = some (pre + (n + 1) + n / 9) ∧
      s.indexLookup (pre + (n + 1) + n / 9) = some id) ∧
    ∀ i id, s.indexLookup i = some id →
      (s.heap[id]?).map Oper.index = some i ∧ id ∈ s.inv.items := by
  obtain ⟨ho, hpre, _⟩ := addArgs_spec args (OpInv.new pre) s (newOp_ok pre) hp hs
  have hpre' : s.pre = pre := hpre
  have hnd : (s.indexDict.map (·.1)).Nodup := by
    rw [ho.dict]
    rw [List.nodup_iff_pairwise_ne, List.pairwise_iff_getElem]
    intro i j hi hj hij
    have := opIndex_lt (pre := s.pre) hij
    simp; omega
  constructor
  · intro n id hn
    have h1 := ho.ids n id hn
    rw [hpre'] at h1
    refine ⟨h1, ?_⟩
    have hmem : (opIndex s.pre n, id) ∈ s.indexDict := by
      rw [ho.dict]
      obtain ⟨hlt, he⟩ := List.getElem?_eq_some_iff.1 hn
      exact List.mem_iff_getElem.2 ⟨n, by simpa using hlt, by simp [he]⟩
    have := find_of_nodup hnd hmem
    unfold OpInv.indexLookup
    rw [hpre'] at this
    unfold opIndex at this
    rw [this]; rfl
  · intro i id hl
    unfold OpInv.indexLookup at hl
    cases hf : s.indexDict.find? (fun p => p.1 == i) with
    | none => rw [hf] at hl; simp at hl
    | some p =>
      rw [hf] at hl
      simp only [Option.map_some, Option.some.injEq] at hl
      have hm := List.mem_of_find?_eq_some hf
      have hk := List.find?_some hf
      simp only [beq_iff_eq] at hk
      rw [ho.dict] at hm
      obtain ⟨n, hn, he⟩ := List.getElem_of_mem hm
      simp only [List.length_mapIdx] at hn
      simp only [List.getElem_mapIdx] at he
      have e1 : p.1 = opIndex s.pre n := by rw [← he]
      have e2 : p.2 = s.inv.items[n] := by rw [← he]
      have := ho.ids n _ (List.getElem?_eq_getElem hn)
      rw [← e2, hl, ← e1, hk] at this
      exact ⟨this, by rw [← hl, e2]; exact List.getElem_mem hn⟩

/-- **C46** (increasing, never ending in zero).  A later operation of the inventory has a larger
index, no index is a multiple of ten, and up to 22 definitions (88 operations) stay below the next
hundred, the prefix of the next inventory. -/
theorem C46_increasing_partial (pre : Nat) (args : List (String × Rat)) (s : OpInv) (hp : 10 ∣ pre)
    (hs : fromArgs pre args = .ok s) :
    (∀ (m n : Nat) (o o' : Oper), m < n → ((s.inv.items[m]?).bind (s.heap[·]?)) = some o →
      ((s.inv.items[n]?).bind (s.heap[·]?)) = some o' → o.index < o'.index) ∧
    (∀ (n : Nat) (o : Oper), ((s.inv.items[n]?).bind (s.heap[·]?)) = some o → o.index % 10 ≠ 0 ∧ pre < o.index ∧
      (args.length ≤ 22 → o.index < pre + 100)) := by
  obtain ⟨ho, hpre, _, hlen, _⟩ := addArgs_spec args (OpInv.new pre) s (newOp_ok pre) hp hs
  have hpre' : s.pre = pre := hpre
  have hlen' : s.inv.items.length ≤ 4 * args.length := by
    simpa [OpInv.new, Inventory.new] using hlen
  have idx : ∀ n o, ((s.inv.items[n]?).bind (s.heap[·]?)) = some o →
      o.index = opIndex pre n ∧ n < s.inv.items.length := by
    intro n o h
    cases hi : s.inv.items[n]? with
    | none => rw [hi] at h; simp at h
    | some id =>
      rw [hi] at h
      simp only [Option.bind_some] at h
      have := ho.ids n id hi
      rw [h, hpre'] at this
      exact ⟨by simpa using this, (List.getElem?_eq_some_iff.1 hi).1⟩
  constructor
  · intro m n o o' hmn h1 h2
    rw [(idx m o h1).1, (idx n o' h2).1]
    exact opIndex_lt hmn
  · intro n o h
    obtain ⟨e, hn⟩ := idx n o h
    rw [e]
    obtain ⟨q, hq⟩ := hp
    unfold opIndex
    exact ⟨by omega, by omega, by omega⟩

/-- Names of methods that `from_args` calls on the inventory. -/
def opMethods : List String :=
  ["_make_operation", "_next_index", "add_item", "valid_item", "_add_field"]

theorem opExamples :
    (match fromArgs 100 commonArgs with
      | .ok s => s.inv.items.length == 40 && s.indexLookup 111 == some 9 &&
          s.indexLookup 110 == none
      | .error _ => false) = true := by decide +kernel

/-- The hypotheses are met by the inventory of common operations: 40 operations, the tenth has
index 111, and index 110 is not used. -/
example : ∃ s, fromArgs 100 commonArgs = .ok s ∧ s.inv.items.length = 40 ∧ 10 ∣ 100 := by
  have h := opExamples
  cases hf : fromArgs 100 commonArgs with
  | error e => rw [hf] at h; simp at h
  | ok s =>
    rw [hf] at h
    simp only [Bool.and_eq_true, beq_iff_eq] at h
    exact ⟨s, rfl, h.1.1, by decide⟩

/-- **C46** (families).  `from_args` makes four operations per definition, numbered in order.  In
each group of four the `match` of every member is the first; `partial` leads to the second from the
first two and to the fourth from the last two; `unexpected` leads to the third from the first and
third and to the fourth from the other two.  The unexpected ones cost 3/4 more. -/
theorem C46_families (pre : Nat) (args : List (String × Rat)) (s : OpInv) (hp : 10 ∣ pre)
    (hs : fromArgs pre args = .ok s) :
    s.heap.length = 4 * args.length ∧
    ∀ k a c, args[k]? = some (a, c) → ∃ o0 o1 o2 o3,
      s.heap[4 * k]? = some o0 ∧ s.heap[4 * k + 1]? = some o1 ∧ s.heap[4 * k + 2]? = some o2 ∧
      s.heap[4 * k + 3]? = some o3 ∧
      (o0.alias, o0.cost, o0.mat, o0.par, o0.unx) = (a, c, 4 * k, 4 * k + 1, 4 * k + 2) ∧
      (o1.alias, o1.cost, o1.mat, o1.par, o1.unx)
        = ("partial_" ++ a, c, 4 * k, 4 * k + 1, 4 * k + 3) ∧
      (o2.alias, o2.cost, o2.mat, o2.par, o2.unx)
        = ("unexpected_" ++ a, c + 3 / 4, 4 * k, 4 * k + 3, 4 * k + 2) ∧
      (o3.alias, o3.cost, o3.mat, o3.par, o3.unx)
        = ("unexpected_partial_" ++ a, c + 3 / 4, 4 * k, 4 * k + 3, 4 * k + 3) := by
  have gen : ∀ (args : List (String × Rat)) (s s' : OpInv), OpOk s → 10 ∣ s.pre →
      s.addArgs args = .ok s' → ∀ k a c, args[k]? = some (a, c) → ∃ o0 o1 o2 o3,
      s'.heap[s.heap.length + 4 * k]? = some o0 ∧ s'.heap[s.heap.length + 4 * k + 1]? = some o1 ∧
      s'.heap[s.heap.length + 4 * k + 2]? = some o2 ∧
      s'.heap[s.heap.length + 4 * k + 3]? = some o3 ∧
      (o0.alias, o0.cost, o0.mat, o0.par, o0.unx) = (a, c, s.heap.length + 4 * k,
        s.heap.length + 4 * k + 1, s.heap.length + 4 * k + 2) ∧
      (o1.alias, o1.cost, o1.mat, o1.par, o1.unx) = ("partial_" ++ a, c, s.heap.length + 4 * k,
        s.heap.length + 4 * k + 1, s.heap.length + 4 * k + 3) ∧
      (o2.alias, o2.cost, o2.mat, o2.par, o2.unx) = ("unexpected_" ++ a, c + 3 / 4,
        s.heap.length + 4 * k, s.heap.length + 4 * k + 3, s.heap.length + 4 * k + 2) ∧
      (o3.alias, o3.cost, o3.mat, o3.par, o3.unx) = ("unexpected_partial_" ++ a, c + 3 / 4,
        s.heap.length + 4 * k, s.heap.length + 4 * k + 3, s.heap.length + 4 * k + 3) := by
    intro args
    induction args with
    | nil => intro s s' _ _ _ k a c hk; simp at hk
    | cons p args ih =>
      intro s s' ho hp hs k a c hk
      obtain ⟨a', c'⟩ := p
      simp only [OpInv.addArgs] at hs
      split at hs
      · simp at hs
      · next s1 h1 =>
        obtain ⟨o1, p1, l1, n1, k1, i0, i1, i2, i3, hheap⟩ := addArg_spec s a' c' ho hp s1 h1
        cases k with
        | zero =>
          simp only [List.getElem?_cons_zero, Option.some.injEq, Prod.mk.injEq] at hk
          obtain ⟨rfl, rfl⟩ := hk
          obtain ⟨_, _, _, _, keep⟩ := addArgs_spec args s1 s' o1 (by rw [p1]; exact hp) hs
          have get : ∀ j, j < 4 → s'.heap[s.heap.length + j]? = s1.heap[s.heap.length + j]? :=
            fun j hj => keep _ (by omega)
          have g0 := get 0 (by omega)
          have g1 := get 1 (by omega)
          have g2 := get 2 (by omega)
          have g3 := get 3 (by omega)
          rw [hheap, List.getElem?_append_right (by omega)] at g0 g1 g2 g3
          simp only [Nat.add_sub_cancel_left, List.getElem?_cons_zero, List.getElem?_cons_succ,
            Nat.add_zero, Nat.sub_self] at g0 g1 g2 g3
          rw [Nat.mul_zero, Nat.add_zero]
          exact ⟨_, _, _, _, g0, g1, g2, g3, rfl, rfl, rfl, rfl⟩
        | succ k =>
          simp only [List.getElem?_cons_succ] at hk
          have := ih s1 s' o1 (by rw [p1]; exact hp) hs k a c hk
          have e : s1.heap.length + 4 * k = s.heap.length + 4 * (k + 1) := by omega
          rw [e] at this
          exact this
  obtain ⟨_, _, hl, _⟩ := addArgs_spec args (OpInv.new pre) s (newOp_ok pre) hp hs
  refine ⟨by simpa [OpInv.new] using hl, ?_⟩
  intro k a c hk
  have := gen args (OpInv.new pre) s (newOp_ok pre) hp hs k a c hk
  simpa [OpInv.new] using this

/-- **C46** (recurring name, disagreement).  An operation whose alias is already used is made, gets
an index and is linked, but is not in the inventory: its index is given again to the next
operation, so the index of an operation need not lead back to it. -/
theorem C46_recurring_alias :
    ∃ s, fromArgs 100 [("a", 0), ("a", 1), ("b", 2)] = .ok s ∧
      (s.heap[4]?).map (fun o => (o.alias, o.cost, o.index)) = some ("a", 1, 105) ∧
      (s.heap[8]?).map (fun o => (o.alias, o.cost, o.index)) = some ("b", 2, 105) ∧
      s.indexLookup 105 = some 8 := by
  refine ⟨_, rfl, ?_, ?_, ?_⟩ <;> rfl

/-- **C46** (disagreement).  Operations put into an inventory with `add_operations` (or through its
constructor) cannot be looked up by index, whatever their index is: the look-up table stays as it
was. -/
theorem C46_added_not_indexed (s s' : OpInv) (os : List Nat)
    (hs : s.addOperations os = .ok s') : ∀ i, s'.indexLookup i = s.indexLookup i := by
  induction os generalizing s with
  | nil => obtain rfl := Except.ok.inj hs; intro i; rfl
  | cons o os ih =>
    simp only [OpInv.addOperations] at hs
    split at hs
    · simp at hs
    · intro i
      rw [ih _ hs i]
      rfl

example : ∃ s s', fromArgs 100 [("a", 0)] = .ok s ∧
    (OpInv.new 100 s.heap).addOperations [0, 1] = .ok s' ∧ s'.inv.items = [0, 1] ∧
    s'.indexLookup 101 = none ∧ s'.nextIndex = .error .valueError := by
  refine ⟨_, _, rfl, rfl, rfl, rfl, rfl⟩

theorem prefixed_not_method (a : String) :
    "partial_" ++ a ∉ opMethods ∧ "unexpected_" ++ a ∉ opMethods ∧
    "unexpected_partial_" ++ a ∉ opMethods := by
  have key : ∀ (p m : String), p.toList ≠ [] → p.toList.head? ≠ m.toList.head? → p ++ a ≠ m := by
    intro p m hp hne he
    have := congrArg (fun s => s.toList.head?) he
    simp only [String.toList_append] at this
    cases hl : p.toList with
    | nil => exact hp hl
    | cons x xs =>
      rw [hl] at this hne
      exact hne (by simpa using this)
  simp only [opMethods, List.mem_cons, List.not_mem_nil, or_false, not_or]
  refine ⟨⟨?_, ?_, ?_, ?_, ?_⟩, ⟨?_, ?_, ?_, ?_, ?_⟩, ⟨?_, ?_, ?_, ?_, ?_⟩⟩ <;>
    exact key _ _ (by decide) (by decide)

theorem makeOperation_total (s : OpInv) (a : String) (c : Rat) (h : OpOk s) (hp : 10 ∣ s.pre)
    (hv : ∀ m ∈ opMethods, s.inv.hasKey m = false) (ha : a ∉ opMethods) :
    ∃ s' id, s.makeOperation a c = .ok (s', id) ∧
      ∀ m ∈ opMethods, s'.inv.hasKey m = false := by
  have h1 := hv "_make_operation" (by simp [opMethods])
  have h2 := hv "_next_index" (by simp [opMethods])
  obtain ⟨b, hb, _⟩ := C41_add_item s.inv a s.heap.length (by
    intro m hm; apply hv; simp [opMethods] at hm ⊢; rcases hm with h | h | h <;> simp [h])
  have hsnd : ∀ m ∈ opMethods, (s.inv.addItem a s.heap.length).1.hasKey m = false := by
    intro m hm
    have hm' := hv m hm
    rcases addItem_cases s.inv a s.heap.length with ⟨e, _⟩ | ⟨_, _, _, e⟩
    · rw [e]; exact hm'
    · rw [e]
      unfold Inventory.hasKey at hm' ⊢
      simp only []
      rw [List.any_append, hm']
      have : a ≠ m := by rintro rfl; exact ha hm
      simpa using this
  unfold OpInv.makeOperation
  simp only [Inventory.method, h1, Bool.false_eq_true, if_false, nextIndex_eq s h hp h2]
  generalize s.inv.addItem a s.heap.length = r at hb hsnd ⊢
  obtain ⟨inv, res⟩ := r
  simp only at hb hsnd
  subst hb
  cases b
  · exact ⟨_, _, rfl, hsnd⟩
  · exact ⟨_, _, rfl, hsnd⟩

/-- **C46** (totality).  Unless a definition is named like one of the methods that are used while
building, `from_args` returns. -/
theorem C46_total (pre : Nat) (args : List (String × Rat)) (hp : 10 ∣ pre)
    (ha : ∀ p ∈ args, p.1 ∉ opMethods) : ∃ s, fromArgs pre args = .ok s := by
  have gen : ∀ (args : List (String × Rat)) (s : OpInv), OpOk s → 10 ∣ s.pre →
      (∀ m ∈ opMethods, s.inv.hasKey m = false) → (∀ p ∈ args, p.1 ∉ opMethods) →
      ∃ s', s.addArgs args = .ok s' := by
    intro args
    induction args with
    | nil => intro s _ _ _ _; exact ⟨s, rfl⟩
    | cons p args ih =>
      intro s ho hp hv ha
      obtain ⟨a, c⟩ := p
      obtain ⟨q1, q2, q3⟩ := prefixed_not_method a
      obtain ⟨s1, m1, e1, v1⟩ := makeOperation_total s a c ho hp hv (ha (a, c) (by simp))
      obtain ⟨o1, p1, _⟩ := makeOperation_spec s a c ho hp s1 m1 e1
      have hp1 : 10 ∣ s1.pre := by rw [p1]; exact hp
      obtain ⟨s2, m2, e2, v2⟩ := makeOperation_total s1 _ c o1 hp1 v1 q1
      obtain ⟨o2, p2, _⟩ := makeOperation_spec s1 _ c o1 hp1 s2 m2 e2
      have hp2 : 10 ∣ s2.pre := by rw [p2]; exact hp1
      obtain ⟨s3, m3, e3, v3⟩ := makeOperation_total s2 _ (c + unexpectedPenalty) o2 hp2 v2 q2
      obtain ⟨o3, p3, _⟩ := makeOperation_spec s2 _ _ o2 hp2 s3 m3 e3
      have hp3 : 10 ∣ s3.pre := by rw [p3]; exact hp2
      obtain ⟨s4, m4, e4, v4⟩ := makeOperation_total s3 _ (c + unexpectedPenalty) o3 hp3 v3 q3
      obtain ⟨o4, p4, _⟩ := makeOperation_spec s3 _ _ o3 hp3 s4 m4 e4
      have hp4 : 10 ∣ s4.pre := by rw [p4]; exact hp3
      have e : s.addArg a c = .ok { s4 with heap := link s4.heap m1 m2 m3 m4 } := by
        simp only [OpInv.addArg, e1, e2, e3, e4]
      simp only [OpInv.addArgs, e]
      exact ih _ (o4.relink _ _ _ _) hp4 v4 (fun p h => ha p (by simp [h]))
  apply gen args (OpInv.new pre) (newOp_ok pre) hp ?_ ha
  intro m hm
  simp only [opMethods, List.mem_cons, List.not_mem_nil, or_false] at hm
  rcases hm with rfl | rfl | rfl | rfl | rfl <;> (simp only [OpInv.new, Inventory.hasKey, Inventory.new]; decide)

example : ∀ p ∈ commonArgs, p.1 ∉ opMethods := by decide

/-- A definition with such a name makes building fail with an exception. -/
example : (fromArgs 100 [("add_item", 0), ("b", 0)]).toOption.isNone = true := by rfl

end Nisaba.Props
