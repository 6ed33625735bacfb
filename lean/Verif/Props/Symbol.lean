import Verif.Model.Symbol
import Verif.Props.Inventory
/-!
# C48: parsing text into symbols
-/
namespace Nisaba.Props.SymbolInv
open Nisaba Nisaba.Inv Nisaba.Symbol

/-! ### Aliases of new symbols -/

theorem unkAlias_inj {m n : Nat} (h : unkAlias m = unkAlias n) : m = n := by
  have := congrArg String.toList h
  simp only [unkAlias, String.toList_append, List.append_cancel_left_eq,
    Nat.toString_eq_repr, Nat.toList_repr] at this
  have := congrArg (fun l => Nat.ofDigitChars 10 l 0) this
  simpa using this

/-- Value of a hexadecimal digit. -/
def hexVal (c : Char) : Nat := if c.toNat < 97 then c.toNat - 48 else c.toNat - 87

theorem hexVal_digitChar (n : Nat) (h : n < 16) : hexVal n.digitChar = n := by
  have : ∀ n ∈ List.range 16, hexVal n.digitChar = n := by decide
  exact this n (List.mem_range.2 h)

theorem foldl_hex (n init : Nat) :
    ∃ k, (Nat.toDigits 16 n).foldl (fun a c => 16 * a + hexVal c) init = k * init + n := by
  induction n using Nat.strongRecOn generalizing init with
  | _ n ih =>
    by_cases h : n < 16
    · exact ⟨16, by rw [Nat.toDigits_of_lt_base h]; simp [hexVal_digitChar n h]⟩
    · rw [Nat.toDigits_of_base_le (by decide) (by omega), List.foldl_append]
      obtain ⟨k, hk⟩ := ih (n / 16) (by omega) init
      refine ⟨16 * k, ?_⟩
      rw [hk]
      simp only [List.foldl_cons, List.foldl_nil]
      rw [hexVal_digitChar _ (Nat.mod_lt _ (by decide))]
      have := Nat.div_add_mod n 16
      rw [Nat.mul_add, Nat.mul_assoc]
      omega

theorem charAlias_inj {m n : Nat} (h : charAlias m = charAlias n) : m = n := by
  have := congrArg String.toList h
  simp only [charAlias, String.toList_append, List.append_cancel_left_eq,
    String.toList_ofList] at this
  have := congrArg (fun l => l.foldl (fun a c => 16 * a + hexVal c) 0) this
  obtain ⟨k, hk⟩ := foldl_hex m 0
  obtain ⟨k', hk'⟩ := foldl_hex n 0
  rw [hk, hk'] at this
  simpa using this

/-- The methods that the modelled calls look up. -/
def symMethods : List String :=
  ["_add_symbol", "_add_to_dicts", "_add_symbol_and_atomic", "raw_from_unknown", "raw_lookup",
   "lookup", "str_to_raw_symbols", "add_item", "valid_item", "_add_field", "add_suppl",
   "make_suppl"]

theorem unkAlias_not_method (n : Nat) : unkAlias n ∉ symMethods := by
  intro h
  have h2 : ∀ m ∈ symMethods, m.toList.head? ≠ some 'f' := by decide
  exact h2 _ h (by simp [unkAlias, String.toList_append])

theorem charAlias_not_method (c : Nat) : charAlias c ∉ symMethods := by
  intro h
  have h2 : ∀ m ∈ symMethods, m.toList.head? ≠ some 'u' := by decide
  exact h2 _ h (by simp [charAlias, String.toList_append])

/-! ### Dictionaries -/

theorem get_cons {K : Type} [DecidableEq K] (d : Dict K) (k k' : K) (y : Sym) :
    Dict.get? ((k, y) :: d) k' = if k = k' then some y else Dict.get? d k' := by
  unfold Dict.get?
  rw [List.find?_cons]
  by_cases h : k = k' <;> simp [h]

theorem get_mem {K : Type} [DecidableEq K] {d : Dict K} {k : K} {y : Sym} (h : d.get? k = some y) :
    (k, y) ∈ d := by
  unfold Dict.get? at h
  cases hf : d.find? (fun p => decide (p.1 = k)) with
  | none => rw [hf] at h; simp at h
  | some p =>
    rw [hf] at h
    simp only [Option.map_some, Option.some.injEq] at h
    have h1 := List.find?_some hf
    have h2 := List.mem_of_find?_eq_some hf
    simp only [decide_eq_true_eq] at h1
    obtain ⟨a, b⟩ := p
    simp only [] at h h1
    subst h; subst h1
    exact h2

/-! ### Adding symbols -/

/-- An inventory after an item was appended. -/
def pushInv (i : Inventory Val) (a : String) (v : Val) : Inventory Val :=
  { i with dict := i.dict ++ [(a, .val v)], items := i.items ++ [v],
           itemAliases := i.itemAliases ++ [a] }

theorem hasKey_push (i : Inventory Val) (a x : String) (v : Val) :
    (pushInv i a v).hasKey x = (i.hasKey x || a == x) := by
  simp [pushInv, Inventory.hasKey, List.any_append]

/-- The state after a symbol was added. -/
def pushed (s : SymInv) (y : Sym) : SymInv :=
  { s with inv := pushInv s.inv y.alias (.sym y) }.addToDicts y

theorem addItem_push (i : Inventory Val) (a : String) (v : Val)
    (hm : ∀ m ∈ ["add_item", "valid_item", "_add_field"], i.hasKey m = false) :
    (i.valid v = true ∧ v ∉ i.items ∧ i.hasKey a = false ∧
      i.addItem a v = (pushInv i a v, .ok true)) ∨
    (¬ (i.valid v = true ∧ v ∉ i.items ∧ i.hasKey a = false) ∧ i.addItem a v = (i, .ok false)) := by
  obtain ⟨b, hb, hiff, _, hf⟩ := C41_add_item i a v hm
  cases b with
  | true =>
    left
    obtain ⟨h1, h2, h3⟩ := hiff.1 rfl
    refine ⟨h1, h2, h3, ?_⟩
    rcases addItem_cases i a v with ⟨_, h⟩ | ⟨_, _, _, h⟩
    · exact absurd hb h
    · exact h
  | false =>
    right
    exact ⟨fun h => by simp at hiff; exact absurd h.2.2 (by simpa using hiff h.1 h.2.1),
      Prod.ext (hf rfl) hb⟩

theorem addSymbol_spec (s : SymInv) (y : Sym) (hm : ∀ m ∈ symMethods, s.inv.hasKey m = false)
    (hy : y.alias ∉ symMethods) :
    (s.inv.valid (.sym y) = true ∧ Val.sym y ∉ s.inv.items ∧ s.inv.hasKey y.alias = false ∧
      s.addSymbol y = (pushed s y, .ok true)) ∨
    (¬ (s.inv.valid (.sym y) = true ∧ Val.sym y ∉ s.inv.items ∧ s.inv.hasKey y.alias = false) ∧
      s.addSymbol y = (s, .ok false)) := by
  have h1 : s.inv.method "_add_symbol" = .ok () := by
    simp [Inventory.method, hm "_add_symbol" (by decide)]
  rcases addItem_push s.inv y.alias (.sym y) (fun m h => hm m (by
    revert m; decide)) with ⟨a, b, c, e⟩ | ⟨n, e⟩
  · left
    refine ⟨a, b, c, ?_⟩
    have h2 : (pushInv s.inv y.alias (.sym y)).method "_add_to_dicts" = .ok () := by
      have hne : y.alias ≠ "_add_to_dicts" := by
        rintro h; exact hy (by rw [h]; decide)
      simp [Inventory.method, hasKey_push, hm "_add_to_dicts" (by decide), hne]
    simp only [SymInv.addSymbol, h1, e, h2]
    rfl
  · right
    refine ⟨n, ?_⟩
    simp only [SymInv.addSymbol, h1, e]

/-! ### The invariant -/

/-- The class of the symbols that an inventory makes for unknown characters. -/
def newClass : Kind → Nat
  | .base => 0
  | .grapheme => 1

/-- Nothing in the inventory stands in the way of the symbols that parsing will add. -/
structure Fresh (s : SymInv) : Prop where
  valid : ∀ y : Sym, y.cls = newClass s.kind → s.inv.valid (.sym y) = true
  methods : ∀ m ∈ symMethods, s.inv.hasKey m = false
  ids : ∀ y : Sym, Val.sym y ∈ s.inv.items → y.id < s.next
  unk : s.kind = .base → ∀ n, s.unknownCount < n → s.inv.hasKey (unkAlias n) = false
  chr : s.kind = .grapheme → ∀ c, s.rawDict.get? [c] = none → s.inv.hasKey (charAlias c) = false
  atomKeys : s.kind = .grapheme → ∀ a, s.atomics.hasKey a = true → s.inv.hasKey a = true
  atomValid : ∀ v, s.atomics.valid v = true
  atomIds : ∀ y : Sym, Val.sym y ∈ s.atomics.items → y.id < s.next

/-- Every entry of the raw dictionary has its key as `raw`. -/
def RawOk (s : SymInv) : Prop := ∀ k y, (k, y) ∈ s.rawDict → y.raw = k

theorem pushed_rawDict (s : SymInv) (y : Sym) (k : List Nat) :
    (pushed s y).rawDict.get? k =
      if y.raw ≠ [] ∧ y.raw = k then some y else s.rawDict.get? k := by
  unfold pushed SymInv.addToDicts
  simp only []
  split
  · next h => simp [h]
  · next h => rw [get_cons]; simp [h]

theorem pushed_fresh (s : SymInv) (y : Sym) (h : Fresh s) (hy : y.alias ∉ symMethods)
    (hid : y.id < s.next)
    (hu : s.kind = .base → ∀ n, y.alias = unkAlias n → n ≤ s.unknownCount)
    (hc : s.kind = .grapheme → ∀ c, y.alias = charAlias c → y.raw = [c]) :
    Fresh (pushed s y) := by
  refine ⟨h.valid, ?_, ?_, ?_, ?_, ?_, h.atomValid, h.atomIds⟩
  · intro m hm
    show (pushInv s.inv y.alias (.sym y)).hasKey m = false
    rw [hasKey_push, h.methods m hm]
    simp only [Bool.false_or, beq_eq_false_iff_ne]
    rintro rfl; exact hy hm
  · intro z hz
    have hz : Val.sym z ∈ s.inv.items ++ [Val.sym y] := hz
    simp only [List.mem_append, List.mem_singleton] at hz
    rcases hz with hz | hz
    · exact h.ids z hz
    · obtain rfl := Val.sym.inj hz; exact hid
  · intro hk n hn
    show (pushInv s.inv y.alias (.sym y)).hasKey _ = false
    rw [hasKey_push, h.unk hk n hn]
    simp only [Bool.false_or, beq_eq_false_iff_ne]
    intro e
    have := hu hk n e
    have hn : s.unknownCount < n := hn
    omega
  · intro hk c hcn
    show (pushInv s.inv y.alias (.sym y)).hasKey _ = false
    rw [pushed_rawDict] at hcn
    split at hcn
    · simp at hcn
    · next hne =>
      rw [hasKey_push, h.chr hk c hcn]
      simp only [Bool.false_or, beq_eq_false_iff_ne]
      intro e
      have := hc hk c e
      exact hne ⟨by rw [this]; simp, this⟩
  · intro hk a ha
    show (pushInv s.inv y.alias (.sym y)).hasKey _ = true
    rw [hasKey_push, h.atomKeys hk a ha]; rfl

theorem addSymbolAndAtomic_spec (s : SymInv) (y : Sym) (h : Fresh s) (hy : y.alias ∉ symMethods)
    (hid : y.id < s.next) (hk : s.kind = .grapheme)
    (hc : ∀ c, y.alias = charAlias c → y.raw = [c]) :
    (s.inv.valid (.sym y) = true ∧ Val.sym y ∉ s.inv.items ∧ s.inv.hasKey y.alias = false ∧
      ∃ s', s.addSymbolAndAtomic y = (s', .ok true) ∧ Fresh s' ∧ s'.kind = s.kind ∧
        s'.rawDict = (pushed s y).rawDict) ∨
    (¬ (s.inv.valid (.sym y) = true ∧ Val.sym y ∉ s.inv.items ∧ s.inv.hasKey y.alias = false) ∧
      s.addSymbolAndAtomic y = (s, .ok false)) := by
  have h0 : s.inv.method "_add_symbol_and_atomic" = .ok () := by
    simp [Inventory.method, h.methods "_add_symbol_and_atomic" (by decide)]
  rcases addSymbol_spec s y h.methods hy with ⟨a, b, c, e⟩ | ⟨n, e⟩
  · left
    refine ⟨a, b, c, ?_⟩
    have hp := pushed_fresh s y h hy hid (by rw [hk]; simp) (fun _ => hc)
    have hak : ∀ x, s.inv.hasKey x = false → s.atomics.hasKey x = false := by
      intro x hx
      cases hx' : s.atomics.hasKey x with
      | false => rfl
      | true => have := h.atomKeys hk x hx'; rw [hx] at this; simp at this
    rcases addItem_push s.atomics y.alias (.sym { y with id := s.next }) (fun m hm =>
      hak m (h.methods m (by revert m; decide))) with ⟨a', b', c', e'⟩ | ⟨n', e'⟩
    · refine ⟨{ pushed s y with
        atomics := pushInv s.atomics y.alias (.sym { y with id := s.next })
        next := s.next + 1 }, ?_, ?_, rfl, rfl⟩
      · simp only [SymInv.addSymbolAndAtomic, h0, e]
        have : (pushed s y).atomics.addItem y.alias (.sym { y with id := (pushed s y).next }) =
          (pushInv s.atomics y.alias (.sym { y with id := s.next }), .ok true) := e'
        rw [this]
        rfl
      · refine ⟨hp.valid, hp.methods, ?_, hp.unk, hp.chr, ?_, hp.atomValid, ?_⟩
        · intro z hz
          exact Nat.lt_succ_of_lt (hp.ids z hz)
        · intro _ x hx
          have hx : (pushInv s.atomics y.alias (.sym { y with id := s.next })).hasKey x = true := hx
          rw [hasKey_push] at hx
          show (pushInv s.inv y.alias (.sym y)).hasKey _ = true
          rw [hasKey_push]
          cases hxa : s.atomics.hasKey x with
          | true => rw [h.atomKeys hk x hxa]; rfl
          | false => rw [hxa] at hx; simp at hx; simp [hx]
        · intro z hz
          have hz : Val.sym z ∈ s.atomics.items ++ [Val.sym { y with id := s.next }] := hz
          simp only [List.mem_append, List.mem_singleton] at hz
          rcases hz with hz | hz
          · exact Nat.lt_succ_of_lt (h.atomIds z hz)
          · obtain rfl := Val.sym.inj hz; exact Nat.lt_succ_self _
    · exfalso
      apply n'
      refine ⟨h.atomValid _, ?_, hak _ c⟩
      intro hmem
      have := h.atomIds _ hmem
      simp at this
  · right
    refine ⟨n, ?_⟩
    simp only [SymInv.addSymbolAndAtomic, h0, e]

/-! ### One character -/

theorem rawFromUnknown_spec (s : SymInv) (c : Nat) (h : Fresh s) (hn : s.rawDict.get? [c] = none) :
    ∃ s' y, s.rawFromUnknown c = (s', .ok y) ∧ Fresh s' ∧ y.raw = [c] ∧ s'.kind = s.kind ∧
      ∀ k, s'.rawDict.get? k = if [c] = k then some y else s.rawDict.get? k := by
  have h0 : s.inv.method "raw_from_unknown" = .ok () := by
    simp [Inventory.method, h.methods "raw_from_unknown" (by decide)]
  cases hk : s.kind with
  | base =>
    let y : Sym := ⟨s.next, 0, unkAlias (s.unknownCount + 1),
      points ("<" ++ unkAlias (s.unknownCount + 1) ++ "_") ++ [c] ++ points ">",
      [c], s.pre + (s.unknownCount + 1)⟩
    let t : SymInv := { s with unknownCount := s.unknownCount + 1, next := s.next + 1 }
    have ht : Fresh t := by
      refine ⟨h.valid, h.methods, ?_, ?_, h.chr, h.atomKeys, h.atomValid, ?_⟩
      · intro z hz; exact Nat.lt_succ_of_lt (h.ids z hz)
      · intro hb n hn'
        have hn' : s.unknownCount + 1 < n := hn'
        exact h.unk hb n (by omega)
      · intro z hz; exact Nat.lt_succ_of_lt (h.atomIds z hz)
    rcases addSymbol_spec t y ht.methods (unkAlias_not_method _) with ⟨_, _, _, e⟩ | ⟨n, _⟩
    · refine ⟨pushed t y, y, ?_, ?_, rfl, hk, ?_⟩
      · unfold SymInv.rawFromUnknown
        simp only [h0, hk]
        have e : ({ s with unknownCount := s.unknownCount + 1, next := s.next + 1 } : SymInv).addSymbol
          y = (pushed t y, .ok true) := e
        rw [hk] at e
        erw [e]
      · refine pushed_fresh t y ht (unkAlias_not_method _) (Nat.lt_succ_self _) ?_ ?_
        · intro _ n e
          have := unkAlias_inj e
          show n ≤ s.unknownCount + 1
          omega
        · intro hg; rw [show t.kind = s.kind from rfl, hk] at hg; simp at hg
      · intro k
        rw [pushed_rawDict]
        simp [y, t]
    · exfalso
      apply n
      refine ⟨h.valid y (by rw [hk]; rfl), ?_, h.unk hk _ (Nat.lt_succ_self _)⟩
      intro hm
      exact Nat.lt_irrefl _ (h.ids y hm)
  | grapheme =>
    let y : Sym := ⟨s.next, 1, charAlias c, [c], [c], graphemePrefix + c⟩
    let t : SymInv := { s with next := s.next + 1 }
    have ht : Fresh t := by
      refine ⟨h.valid, h.methods, ?_, h.unk, h.chr, h.atomKeys, h.atomValid, ?_⟩
      · intro z hz; exact Nat.lt_succ_of_lt (h.ids z hz)
      · intro z hz; exact Nat.lt_succ_of_lt (h.atomIds z hz)
    rcases addSymbolAndAtomic_spec t y ht (charAlias_not_method _) (Nat.lt_succ_self _) hk
      (fun c' e => by show [c] = [c']; rw [charAlias_inj e]) with ⟨_, _, _, s', e, hf, hk', hr⟩ | ⟨n, _⟩
    · refine ⟨s', y, ?_, hf, rfl, by rw [hk']; exact hk, ?_⟩
      · unfold SymInv.rawFromUnknown
        simp only [h0, hk]
        have e : ({ s with next := s.next + 1 } : SymInv).addSymbolAndAtomic y = (s', .ok true) := e
        rw [hk] at e
        erw [e]
      · intro k
        rw [hr, pushed_rawDict]
        simp [y, t]
    · exfalso
      apply n
      refine ⟨h.valid y (by rw [hk]; rfl), ?_, h.chr hk c hn⟩
      intro hm
      exact Nat.lt_irrefl _ (h.ids y hm)

theorem rawSymbol_spec (s : SymInv) (c : Nat) (h : Fresh s) :
    ∃ s' y, s.rawSymbol c = (s', .ok y) ∧ Fresh s' ∧ s'.kind = s.kind ∧
      s'.rawDict.get? [c] = some y ∧
      (∀ k z, s.rawDict.get? k = some z → s'.rawDict.get? k = some z) ∧
      (∀ z, s.rawDict.get? [c] = some z → s' = s) ∧ (s.rawDict.get? [c] = none → y.raw = [c]) ∧
      (∀ k z, s'.rawDict.get? k = some z → s.rawDict.get? k = some z ∨ k = [c]) := by
  unfold SymInv.rawSymbol
  cases hg : s.rawDict.get? [c] with
  | some z =>
    refine ⟨s, z, ?_, h, rfl, hg, fun _ _ h => h, fun _ _ => rfl, by simp, fun _ _ h => Or.inl h⟩
    simp [SymInv.rawLookup, Inventory.method, h.methods "raw_lookup" (by decide),
      h.methods "lookup" (by decide), hg]
  | none =>
    obtain ⟨s', y, e, hf, hr, hk, hd⟩ := rawFromUnknown_spec s c h hg
    refine ⟨s', y, by simp [e], hf, hk, by rw [hd]; simp, ?_, by simp, fun _ => hr, ?_⟩
    · intro k z hz
      rw [hd]
      split
      · next e => rw [← e, hg] at hz; simp at hz
      · exact hz
    · intro k z hz
      rw [hd] at hz
      split at hz
      · next e => exact Or.inr e.symm
      · exact Or.inl hz

/-- Result of a whole text. -/
theorem strToRaw_spec (t : List Nat) (s : SymInv) (h : Fresh s) :
    ∃ s', s.strToRaw t = (s', .ok (t.map (fun c => (s'.rawDict.get? [c]).getD unk))) ∧ Fresh s' ∧
      s'.kind = s.kind ∧
      (∀ c ∈ t, (s'.rawDict.get? [c]).isSome = true) ∧
      (∀ k z, s.rawDict.get? k = some z → s'.rawDict.get? k = some z) ∧
      ((∀ c ∈ t, (s.rawDict.get? [c]).isSome = true) → s' = s) ∧
      (∀ k z, s'.rawDict.get? k = some z → s.rawDict.get? k = some z ∨ ∃ c ∈ t, k = [c]) := by
  induction t generalizing s with
  | nil => exact ⟨s, rfl, h, rfl, by simp, fun _ _ h => h, fun _ => rfl, fun _ _ h => Or.inl h⟩
  | cons c cs ih =>
    obtain ⟨s1, y, e1, f1, k1, g1, p1, u1, _, n1⟩ := rawSymbol_spec s c h
    obtain ⟨s2, e2, f2, k2, g2, p2, u2, n2⟩ := ih s1 f1
    have hy := p2 _ _ g1
    refine ⟨s2, ?_, f2, k2.trans k1, ?_, fun k z hz => p2 k z (p1 k z hz), ?_, ?_⟩
    · simp only [SymInv.strToRaw, e1, e2, List.map_cons, hy, Option.getD_some]
    · intro d hd
      simp only [List.mem_cons] at hd
      rcases hd with rfl | hd
      · rw [hy]; rfl
      · exact g2 d hd
    · intro hall
      have hs1 : s1 = s := by
        have := hall c (by simp)
        rw [Option.isSome_iff_exists] at this
        obtain ⟨z, hz⟩ := this
        exact u1 z hz
      rw [hs1] at u2
      exact u2 (fun d hd => hall d (by simp [hd]))
    · intro k z hz
      rcases n2 k z hz with hz | ⟨d, hd, rfl⟩
      · rcases n1 k z hz with hz | rfl
        · exact Or.inl hz
        · exact Or.inr ⟨c, by simp, rfl⟩
      · exact Or.inr ⟨d, by simp [hd], rfl⟩

/-! ### What holds without any condition -/

theorem addToDicts_rawOk (s : SymInv) (y : Sym) (h : RawOk s) : RawOk (s.addToDicts y) := by
  intro k z hz
  unfold SymInv.addToDicts at hz
  simp only [] at hz
  split at hz
  · exact h k z hz
  · simp only [List.mem_cons, Prod.mk.injEq] at hz
    rcases hz with ⟨rfl, rfl⟩ | hz
    · rfl
    · exact h k z hz

theorem addSymbol_rawOk (s : SymInv) (y : Sym) (h : RawOk s) :
    RawOk (s.addSymbol y).1 ∧ (s.addSymbol y).1.kind = s.kind := by
  unfold SymInv.addSymbol
  split
  · exact ⟨h, rfl⟩
  · split
    · next i _ =>
      simp only []
      split
      · exact ⟨h, rfl⟩
      · exact ⟨addToDicts_rawOk _ y h, rfl⟩
    · exact ⟨h, rfl⟩
    · exact ⟨h, rfl⟩

theorem addSymbolAndAtomic_rawOk (s : SymInv) (y : Sym) (h : RawOk s) :
    RawOk (s.addSymbolAndAtomic y).1 ∧ (s.addSymbolAndAtomic y).1.kind = s.kind := by
  have h1 := addSymbol_rawOk s y h
  unfold SymInv.addSymbolAndAtomic
  split
  · exact ⟨h, rfl⟩
  · split
    · next e => rw [e] at h1; exact h1
    · next e =>
      rw [e] at h1; exact h1

theorem rawSymbol_rawOk (s : SymInv) (c : Nat) (h : RawOk s) :
    RawOk (s.rawSymbol c).1 ∧ (s.rawSymbol c).1.kind = s.kind ∧
      ∀ y, (s.rawSymbol c).2 = .ok y → y.raw = [c] ∨ (s.kind = .grapheme ∧ y = nor) := by
  unfold SymInv.rawSymbol
  split
  · next hs =>
    refine ⟨h, rfl, ?_⟩
    intro y hy
    left
    rw [Option.isSome_iff_exists] at hs
    obtain ⟨z, hz⟩ := hs
    simp only [SymInv.rawLookup, hz, Option.getD_some] at hy
    split at hy
    · simp at hy
    · split at hy
      · simp at hy
      · obtain rfl := Except.ok.inj hy
        exact h _ _ (get_mem hz)
  · unfold SymInv.rawFromUnknown
    split
    · exact ⟨h, rfl, by simp⟩
    · split
      · next hk =>
        simp only []
        generalize hy : Sym.mk _ _ _ _ _ _ = y
        have hr : y.raw = [c] := by rw [← hy]
        have h1 := addSymbol_rawOk { s with unknownCount := s.unknownCount + 1, next := s.next + 1 }
          y h
        split
        · next e => rw [e] at h1; exact ⟨h1.1, h1.2, by simp⟩
        · next e =>
          rw [e] at h1
          refine ⟨h1.1, h1.2, ?_⟩
          intro z hz
          obtain rfl := Except.ok.inj hz
          exact Or.inl hr
      · next hk =>
        simp only []
        generalize hy : Sym.mk _ _ _ _ _ _ = y
        have hr : y.raw = [c] := by rw [← hy]
        have h1 := addSymbolAndAtomic_rawOk { s with next := s.next + 1 } y h
        split
        · next e => rw [e] at h1; exact ⟨h1.1, h1.2, by simp⟩
        · next e =>
          rw [e] at h1
          refine ⟨h1.1, h1.2, ?_⟩
          intro z hz
          obtain rfl := Except.ok.inj hz
          exact Or.inl hr
        · next e =>
          rw [e] at h1
          refine ⟨h1.1, h1.2, ?_⟩
          intro z hz
          obtain rfl := Except.ok.inj hz
          exact Or.inr ⟨hk, rfl⟩

theorem strToRaw_rawOk (t : List Nat) (s : SymInv) (h : RawOk s) :
    RawOk (s.strToRaw t).1 ∧ (s.strToRaw t).1.kind = s.kind ∧
      ∀ ys, (s.strToRaw t).2 = .ok ys → ys.length = t.length ∧
        ∀ i (hi : i < ys.length) (hi' : i < t.length),
          ys[i].raw = [t[i]] ∨ (s.kind = .grapheme ∧ ys[i] = nor) := by
  induction t generalizing s with
  | nil =>
    refine ⟨h, rfl, ?_⟩
    intro ys hys
    obtain rfl := Except.ok.inj hys
    simp
  | cons c cs ih =>
    obtain ⟨a1, a2, a3⟩ := rawSymbol_rawOk s c h
    simp only [SymInv.strToRaw]
    split
    · next e => rw [e] at a1 a2; exact ⟨a1, a2, by simp⟩
    · next s1 y e =>
      rw [e] at a1 a2 a3
      obtain ⟨b1, b2, b3⟩ := ih s1 a1
      split
      · next e' => rw [e'] at b1 b2; exact ⟨b1, b2.trans a2, by simp⟩
      · next s2 ys e' =>
        rw [e'] at b1 b2 b3
        refine ⟨b1, b2.trans a2, ?_⟩
        intro zs hzs
        obtain rfl := Except.ok.inj hzs
        obtain ⟨l, hl⟩ := b3 ys rfl
        refine ⟨by simp [l], ?_⟩
        intro i hi hi'
        cases i with
        | zero => exact a3 y rfl
        | succ i =>
          have := hl i (by simpa using hi) (by simpa using hi')
          rw [a2] at this
          simpa using this

/-! ### Reachable inventories -/

theorem foldl_dicts_rawOk (l : List Sym) (s : SymInv) (h : RawOk s) :
    RawOk (l.foldl SymInv.addToDicts s) ∧ (l.foldl SymInv.addToDicts s).kind = s.kind := by
  induction l generalizing s with
  | nil => exact ⟨h, rfl⟩
  | cons y l ih => exact ih (s.addToDicts y) (addToDicts_rawOk s y h)

theorem step_rawOk (s : SymInv) (o : Op) (h : RawOk s) :
    RawOk (s.step o) ∧ (s.step o).kind = s.kind := by
  cases o with
  | add y =>
    simp only [SymInv.step]
    split
    · next hk => exact addSymbol_rawOk _ y h
    · next hk => exact addSymbolAndAtomic_rawOk _ y h
  | suppl a n => exact ⟨h, rfl⟩
  | parse t =>
    simp only [SymInv.step, SymInv.parse]
    split
    · exact ⟨h, rfl⟩
    · exact ⟨(strToRaw_rawOk t s h).1, (strToRaw_rawOk t s h).2.1⟩

theorem run_rawOk (os : List Op) (s : SymInv) (h : RawOk s) :
    RawOk (s.run os) ∧ (s.run os).kind = s.kind := by
  induction os generalizing s with
  | nil => exact ⟨h, rfl⟩
  | cons o os ih =>
    obtain ⟨a, b⟩ := step_rawOk s o h
    obtain ⟨c, d⟩ := ih _ a
    exact ⟨c, d.trans b⟩

/-- Inventory reached from a new one by some calls. -/
def ReachableSym (s : SymInv) : Prop :=
  ∃ kind valid pre os, s = (SymInv.new kind valid pre).run os

theorem ReachableSym.rawOk {s : SymInv} (h : ReachableSym s) : RawOk s := by
  obtain ⟨kind, valid, pre, os, rfl⟩ := h
  refine (run_rawOk os _ ?_).1
  exact (foldl_dicts_rawOk ctrl _ (by intro k y h; simp at h)).1

/-- What a caller must not do: give a symbol or supplement an alias that is the name of a method
or of the form that the inventory reserves for unknown characters, unless the symbol is the grapheme
of that character. -/
def Plain (kind : Kind) : Op → Prop
  | .add y => y.alias ∉ symMethods ∧ (kind = .base → ∀ n, y.alias ≠ unkAlias n) ∧
      (kind = .grapheme → ∀ c, y.alias = charAlias c → y.raw = [c])
  | .suppl a _ => a ∉ symMethods ∧ (kind = .base → ∀ n, a ≠ unkAlias n) ∧
      (kind = .grapheme → ∀ c, a ≠ charAlias c)
  | .parse _ => True

theorem new_fresh (kind : Kind) (valid : Val → Bool) (pre : Nat)
    (hv : ∀ y : Sym, y.cls = newClass kind → valid (.sym y) = true) :
    Fresh (SymInv.new kind valid pre) := by
  have hu : ∀ (l : List String), (∀ x ∈ l, x.toList.head? ≠ some 'f') → ∀ n,
      unkAlias n ∉ l := by
    intro l hl n hm
    exact hl _ hm (by simp [unkAlias, String.toList_append])
  have hc : ∀ (l : List String), (∀ x ∈ l, x.toList.take 3 ≠ ['u', '_', '0']) → ∀ n,
      charAlias n ∉ l := by
    intro l hl n hm
    exact hl _ hm (by simp [charAlias, String.toList_append])
  have key : ∀ (i : Inventory Val) (x : String), x ∉ i.dict.map (·.1) → i.hasKey x = false := by
    intro i x hx
    cases h : i.hasKey x with
    | false => rfl
    | true =>
      obtain ⟨f, hf⟩ := (hasKey_iff i x).1 h
      exact absurd (List.mem_map.2 ⟨_, hf, rfl⟩) hx
  cases kind with
  | base =>
    have hd : (SymInv.new .base valid pre).inv.dict.map (·.1) =
      ownFields ++ ["index_dict", "raw_dict", "text_dict", "prefix", "unknown_count"] ++ ["CTRL"] :=
      rfl
    refine ⟨hv, ?_, ?_, ?_, ?_, ?_, fun _ => rfl, ?_⟩
    · intro m hm
      apply key
      rw [hd]
      revert m; decide
    · intro y hy
      have : Val.sym y ∈ ([] : List Val) := hy
      simp at this
    · intro _ n _
      apply key
      rw [hd]
      exact hu _ (by decide) n
    · intro h; simp [SymInv.new] at h; cases h
    · intro h; cases h
    · intro y hy
      have : Val.sym y ∈ ([] : List Val) := hy
      simp at this
  | grapheme =>
    have hd : (SymInv.new .grapheme valid pre).inv.dict.map (·.1) =
      ownFields ++ ["index_dict", "raw_dict", "text_dict", "prefix", "unknown_count",
        "language", "atomics", "script"] ++ ["CTRL"] := rfl
    refine ⟨hv, ?_, ?_, ?_, ?_, ?_, fun _ => rfl, ?_⟩
    · intro m hm
      apply key
      rw [hd]
      revert m; decide
    · intro y hy
      have : Val.sym y ∈ ([] : List Val) := hy
      simp at this
    · intro h; cases h
    · intro _ c _
      apply key
      rw [hd]
      exact hc _ (by decide) c
    · intro _ a ha
      obtain ⟨f, hf⟩ := (hasKey_iff _ _).1 ha
      have h1 : a ∈ ownFields := by
        have : (a, f) ∈ (ownFields ++ []).map (fun k => (k, (Field.own : Field Val))) := hf
        rw [List.append_nil] at this
        obtain ⟨k, hk, e⟩ := List.mem_map.1 this
        simp only [Prod.mk.injEq] at e
        rw [← e.1]; exact hk
      have h2 : a ∈ (SymInv.new .grapheme valid pre).inv.dict.map (·.1) := by
        rw [hd]; simp [h1]
      obtain ⟨⟨x, g⟩, hx, rfl⟩ := List.mem_map.1 h2
      exact (hasKey_iff _ _).2 ⟨g, hx⟩
    · intro y hy
      have : Val.sym y ∈ ([] : List Val) := hy
      simp at this

theorem Fresh.next_mono {s : SymInv} (h : Fresh s) (n : Nat) (hn : s.next ≤ n) :
    Fresh { s with next := n } :=
  ⟨h.valid, h.methods, fun y hy => Nat.lt_of_lt_of_le (h.ids y hy) hn, h.unk, h.chr, h.atomKeys,
    h.atomValid, fun y hy => Nat.lt_of_lt_of_le (h.atomIds y hy) hn⟩

theorem step_fresh (s : SymInv) (o : Op) (h : Fresh s) (ho : Plain s.kind o) :
    Fresh (s.step o) ∧ (s.step o).kind = s.kind := by
  cases o with
  | add y =>
    obtain ⟨h1, h2, h3⟩ := ho
    have ht := h.next_mono (max s.next (y.id + 1)) (Nat.le_max_left _ _)
    have hid : y.id < max s.next (y.id + 1) := by omega
    simp only [SymInv.step]
    split
    · next hk =>
      have hk' : s.kind = .base := hk
      rcases addSymbol_spec _ y ht.methods h1 with ⟨_, _, _, e⟩ | ⟨_, e⟩
      · rw [e]
        refine ⟨pushed_fresh _ y ht h1 hid ?_ ?_, rfl⟩
        · intro _ n en; exact absurd en (h2 hk' n)
        · intro hg; rw [hk] at hg; simp at hg
      · rw [e]; exact ⟨ht, rfl⟩
    · next hk =>
      have hk' : s.kind = .grapheme := hk
      rcases addSymbolAndAtomic_spec _ y ht h1 hid hk (h3 hk') with ⟨_, _, _, s', e, hf, hk2, _⟩ | ⟨_, e⟩
      · rw [e]; exact ⟨hf, hk2⟩
      · rw [e]; exact ⟨ht, rfl⟩
  | suppl a n =>
    obtain ⟨h1, h2, h3⟩ := ho
    simp only [SymInv.step]
    rcases makeSuppl_cases s.inv a (.obj n) with ⟨e, _⟩ | ⟨_, e⟩
    · rw [e]; exact ⟨h, trivial⟩
    · rw [e]
      have hk : ∀ x, Inventory.hasKey { s.inv with
            dict := s.inv.dict ++ [(a, .val (.obj n))]
            supplAliases := s.inv.supplAliases ++ [a] } x = (s.inv.hasKey x || a == x) := by
        intro x; simp [Inventory.hasKey, List.any_append]
      refine ⟨⟨h.valid, ?_, h.ids, ?_, ?_, ?_, h.atomValid, h.atomIds⟩, trivial⟩
      · intro m hm
        refine (hk m).trans ?_
        rw [h.methods m hm]
        simp only [Bool.false_or, beq_eq_false_iff_ne]
        rintro rfl; exact h1 hm
      · intro hb m hm
        refine (hk _).trans ?_
        rw [h.unk hb m hm]
        simpa using h2 hb m
      · intro hg c hc
        refine (hk _).trans ?_
        rw [h.chr hg c hc]
        simpa using h3 hg c
      · intro hg x hx
        refine (hk _).trans ?_
        rw [h.atomKeys hg x hx]; rfl
  | parse t =>
    have h0 : s.inv.method "str_to_raw_symbols" = .ok () := by
      simp [Inventory.method, h.methods "str_to_raw_symbols" (by decide)]
    obtain ⟨s', e, hf, hk, _⟩ := strToRaw_spec t s h
    simp only [SymInv.step, SymInv.parse, h0, e]
    exact ⟨hf, hk⟩

theorem run_fresh (os : List Op) (s : SymInv) (h : Fresh s) (ho : ∀ o ∈ os, Plain s.kind o) :
    Fresh (s.run os) := by
  induction os generalizing s with
  | nil => exact h
  | cons o os ih =>
    obtain ⟨a, b⟩ := step_fresh s o h (ho o (by simp))
    exact ih (s.step o) a (fun o' h' => by rw [b]; exact ho o' (by simp [h']))

end Nisaba.Props.SymbolInv

namespace Nisaba.Props
open Nisaba Nisaba.Inv Nisaba.Symbol SymbolInv

/-! ## C48 -/

/-- **C48** (one for one).  Whatever happened to an inventory before, if parsing a text returns, it
returns one symbol per character, and the symbol's raw string is the character; only in a grapheme
inventory it may instead be the control symbol `nor`. -/
theorem C48_one_for_one (s : SymInv) (h : ReachableSym s) (t : List Nat) (ys : List Sym)
    (hp : (s.parse t).2 = .ok ys) :
    ys.length = t.length ∧ ∀ i (hi : i < ys.length) (hi' : i < t.length),
      ys[i].raw = [t[i]] ∨ (s.kind = .grapheme ∧ ys[i] = nor) := by
  unfold SymInv.parse at hp
  split at hp
  · simp at hp
  · exact (strToRaw_rawOk t s h.rawOk).2.2 ys hp

/-- **C48** (lossless).  In a symbol inventory that is no grapheme inventory, the raw strings of the
parsed symbols spell the text. -/
theorem C48_lossless (s : SymInv) (h : ReachableSym s) (hk : s.kind = .base) (t : List Nat)
    (ys : List Sym) (hp : (s.parse t).2 = .ok ys) : (ys.map (·.raw)).flatten = t := by
  obtain ⟨hl, hi⟩ := C48_one_for_one s h t ys hp
  have : ys.map (·.raw) = t.map (fun c => [c]) := by
    apply List.ext_getElem (by simp [hl])
    intro i h1 h2
    simp only [List.length_map] at h1 h2
    rcases hi i h1 h2 with h' | ⟨h', _⟩
    · simpa using h'
    · rw [hk] at h'; simp at h'
  rw [this]
  clear hp hl hi this
  induction t with
  | nil => rfl
  | cons c t ih => simp [ih]

/-- **C48** (no loss, and the same symbol for the same character).  If the item type admits the
symbols that the inventory makes itself, and no caller took a reserved alias, parsing never raises;
the raw strings spell the text in a grapheme inventory too; known characters get the symbol they
already have; equal characters get equal symbols; and parsing the text again gives the same symbols
and adds nothing. -/
theorem C48_remembered_partial (kind : Kind) (valid : Val → Bool) (pre : Nat) (os : List Op)
    (hv : ∀ y : Sym, y.cls = newClass kind → valid (.sym y) = true)
    (ho : ∀ o ∈ os, Plain kind o) (t : List Nat) :
    let s := (SymInv.new kind valid pre).run os
    ∃ s' ys, s.parse t = (s', .ok ys) ∧ (ys.map (·.raw)).flatten = t ∧
      (∀ i (hi : i < ys.length) (hi' : i < t.length) y, s.rawDict.get? [t[i]] = some y →
        ys[i] = y) ∧
      (∀ i j (hi : i < ys.length) (hj : j < ys.length) (hi' : i < t.length) (hj' : j < t.length),
        t[i] = t[j] ↔ ys[i] = ys[j]) ∧
      s'.parse t = (s', .ok ys) := by
  have hf : Fresh ((SymInv.new kind valid pre).run os) :=
    run_fresh os _ (new_fresh kind valid pre hv) ho
  have hr : ReachableSym ((SymInv.new kind valid pre).run os) := ⟨kind, valid, pre, os, rfl⟩
  generalize (SymInv.new kind valid pre).run os = s at hf hr
  obtain ⟨s', e, f', k', g', p', u', _⟩ := strToRaw_spec t s hf
  obtain ⟨s2, e2, f2, k2, g2, p2, u2, _⟩ := strToRaw_spec t s' f'
  have hm : ∀ x : SymInv, Fresh x → x.parse t = x.strToRaw t := by
    intro x hx
    simp [SymInv.parse, Inventory.method, hx.methods "str_to_raw_symbols" (by decide)]
  have hs2 := u2 g'
  subst hs2
  have hraw : ∀ c ∈ t, ∃ y, s2.rawDict.get? [c] = some y ∧ y.raw = [c] := by
    intro c hc
    have := g' c hc
    rw [Option.isSome_iff_exists] at this
    obtain ⟨y, hy⟩ := this
    refine ⟨y, hy, ?_⟩
    have hok := (strToRaw_rawOk t s hr.rawOk).1
    rw [e] at hok
    exact hok _ _ (get_mem hy)
  refine ⟨s2, _, (hm s hf).trans e, ?_, ?_, ?_, (hm s2 f').trans e2⟩
  · have : ∀ l : List Nat, (∀ c ∈ l, c ∈ t) →
        ((l.map (fun c => (s2.rawDict.get? [c]).getD unk)).map (·.raw)).flatten = l := by
      intro l hl
      induction l with
      | nil => rfl
      | cons c l ih =>
        obtain ⟨y, hy, hr'⟩ := hraw c (hl c (by simp))
        simp only [List.map_cons, List.flatten_cons, hy, Option.getD_some, hr']
        rw [ih (fun d hd => hl d (by simp [hd]))]
        rfl
    exact this t (fun _ h => h)
  · intro i hi hi' y hy
    simp only [List.getElem_map]
    rw [p' _ _ hy]; rfl
  · intro i j hi hj hi' hj'
    simp only [List.getElem_map]
    constructor
    · intro h; rw [h]
    · intro h
      obtain ⟨y, hy, hry⟩ := hraw t[i] (List.getElem_mem hi')
      obtain ⟨z, hz, hrz⟩ := hraw t[j] (List.getElem_mem hj')
      rw [hy, hz] at h
      simp only [Option.getD_some] at h
      subst h
      rw [hry] at hrz
      simpa using hrz

/-- An inventory with two symbols, and a text with a character it does not know. -/
example :
    let os : List Op := [.add ⟨10, 0, "a", [97], [97], 1⟩, .add ⟨11, 0, "b", [98], [98], 2⟩]
    (match (((SymInv.new .base (fun _ => true) undefinedPrefix).run os).parse [97, 99, 98, 99]).2 with
     | .ok ys => ys.map (fun y => (y.alias, y.raw, y.index))
     | .error _ => []) =
      [("a", [97], 1), ("from_unk_1", [99], 9000001), ("b", [98], 2),
       ("from_unk_1", [99], 9000001)] := by decide +kernel

example : ∀ o ∈ ([.add ⟨10, 0, "a", [97], [97], 1⟩, .parse [97, 98],
    .suppl "letters" 3] : List Op), Plain .base o := by
  have h : ∀ (a : String), a.toList.head? ≠ some 'f' → ∀ n, a ≠ unkAlias n := by
    rintro a ha n rfl
    exact ha (by simp [unkAlias, String.toList_append])
  intro o ho
  simp only [List.mem_cons, List.not_mem_nil, or_false] at ho
  rcases ho with rfl | rfl | rfl
  · exact ⟨by decide, fun _ => h _ (by decide), by simp⟩
  · trivial
  · exact ⟨by decide, fun _ => h _ (by decide), by simp⟩

/-- **C48** (disagreement).  In an inventory whose item type does not admit plain `Symbol`s, such as
`Phon.Inventory`, the new symbols are returned but not kept: the two copies of an unknown character
get different symbols, with different indices. -/
theorem C48_typed_forgets (valid : Val → Bool) (pre c : Nat)
    (hv : ∀ y : Sym, y.cls = 0 → valid (.sym y) = false) :
    ∃ s' y z, (SymInv.new .base valid pre).parse [c, c] = (s', .ok [y, z]) ∧ y.raw = [c] ∧
      z.raw = [c] ∧ y.index ≠ z.index ∧ s'.rawDict.get? [c] = none := by
  have add : ∀ (s : SymInv) (y : Sym), y.cls = 0 → s.inv.valid = valid →
      (∀ m ∈ symMethods, s.inv.hasKey m = false) → y.alias ∉ symMethods →
      s.addSymbol y = (s, .ok false) := by
    intro s y hc hval hm hy
    rcases addSymbol_spec s y hm hy with ⟨h, _⟩ | ⟨_, h⟩
    · rw [hval, hv y hc] at h; simp at h
    · exact h
  have unknown : ∀ (s : SymInv), s.kind = .base → s.inv.valid = valid →
      (∀ m ∈ symMethods, s.inv.hasKey m = false) → s.rawDict.get? [c] = none →
      ∃ s' y, s.rawSymbol c = (s', .ok y) ∧ y.raw = [c] ∧ y.index = s.pre + (s.unknownCount + 1) ∧
        s'.kind = .base ∧ s'.inv = s.inv ∧ s'.rawDict = s.rawDict ∧ s'.pre = s.pre ∧
        s'.unknownCount = s.unknownCount + 1 := by
    intro s hk hval hm hn
    have h0 : s.inv.method "raw_from_unknown" = .ok () := by
      simp [Inventory.method, hm "raw_from_unknown" (by decide)]
    have e := add { s with unknownCount := s.unknownCount + 1, next := s.next + 1 }
      ⟨s.next, 0, unkAlias (s.unknownCount + 1),
        points ("<" ++ unkAlias (s.unknownCount + 1) ++ "_") ++ [c] ++ points ">",
        [c], s.pre + (s.unknownCount + 1)⟩ rfl hval hm (unkAlias_not_method _)
    rw [hk] at e
    have e2 : s.rawSymbol c = (({ s with
          kind := .base
          unknownCount := s.unknownCount + 1
          next := s.next + 1 } : SymInv),
        .ok ⟨s.next, 0, unkAlias (s.unknownCount + 1),
          points ("<" ++ unkAlias (s.unknownCount + 1) ++ "_") ++ [c] ++ points ">",
          [c], s.pre + (s.unknownCount + 1)⟩) := by
      unfold SymInv.rawSymbol SymInv.rawFromUnknown
      simp only [hn, Option.isSome_none, Bool.false_eq_true, if_false, h0, hk]
      rw [e]
    exact ⟨_, _, e2, rfl, rfl, rfl, rfl, rfl, rfl, rfl⟩
  have hm0 : ∀ m ∈ symMethods, (SymInv.new .base valid pre).inv.hasKey m = false := by
    intro m hm
    have hd : (SymInv.new .base valid pre).inv.hasKey m =
      (ownFields ++ ["index_dict", "raw_dict", "text_dict", "prefix", "unknown_count"] ++
        ["CTRL"]).any (· == m) := rfl
    rw [hd]
    clear hd
    revert m; decide
  have hn0 : (SymInv.new .base valid pre).rawDict.get? [c] = none := rfl
  obtain ⟨s1, y, e1, r1, i1, k1, v1, d1, p1, c1⟩ := unknown (SymInv.new .base valid pre) rfl rfl hm0 hn0
  obtain ⟨s2, z, e2, r2, i2, k2, v2, d2, p2, c2⟩ := unknown s1 k1 (by rw [v1]; rfl)
    (by rw [v1]; exact hm0) (by rw [d1]; exact hn0)
  refine ⟨s2, y, z, ?_, r1, r2, ?_, ?_⟩
  · simp [SymInv.parse, Inventory.method, hm0 "str_to_raw_symbols" (by decide), SymInv.strToRaw, e1,
      e2]
  · rw [i1, i2, p1, c1]; omega
  · rw [d2, d1]; rfl

example : ∀ y : Sym, y.cls = 0 → (fun v : Val => match v with
    | .sym y => y.cls == 2
    | .obj _ => false) (.sym y) = false := by
  intro y h; simp [h]

/-- **C48** (disagreement).  A symbol that took the reserved alias `from_unk_1` makes a symbol
inventory forget the first unknown character as well. -/
theorem C48_reserved_alias :
    let s := (SymInv.new .base (fun _ => true) 0).run [.add ⟨10, 0, "from_unk_1", [], [], 50⟩]
    (match (s.parse [99, 99, 99]).2 with
     | .ok ys => ys.map (·.alias)
     | .error _ => []) = ["from_unk_1", "from_unk_2", "from_unk_2"] := by decide +kernel

/-- **C48** (disagreement).  If a grapheme with other raw text took the alias `u_0x63`, then parsing
the character `c` (U+0063) in that grapheme inventory returns `nor`, and the text is lost. -/
theorem C48_grapheme_lost :
    let s := (SymInv.new .grapheme (fun _ => true) 0).run [.add ⟨10, 1, "u_0x63", [100], [100], 50⟩]
    (match (s.parse [100, 99]).2 with
     | .ok ys => ys.map (fun y => (y.alias, y.raw))
     | .error _ => []) = [("u_0x63", [100]), ("nor", [])] := by decide +kernel

end Nisaba.Props
