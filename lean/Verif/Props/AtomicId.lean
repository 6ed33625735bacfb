import Verif.Model.AtomicId
/-!
# Theorems on instances of symbols (C137)
-/
namespace Nisaba.Props

open Nisaba.AtomicId

variable {A F : Type}

/-- What every store has that a program reaches. -/
structure StoreInv (st : Store A F) : Prop where
  len : 14 ≤ st.length
  plain : ∀ (r : Nat) (o : Obj A F), r < 7 → st[r]? = some o → o.of = none
  const : ∀ (r : Nat) (o : Obj A F), 7 ≤ r → r < 14 → st[r]? = some o → o.of = some (r - 7)
  target : ∀ (r : Nat) (o : Obj A F) (s : Nat), st[r]? = some o → o.of = some s → ∃ p, st[s]? = some p ∧ p.of = none ∧ o.attrs = p.attrs

theorem getElem?_snoc {X : Type} {l : List X} {x o : X} {r : Nat} (h : (l ++ [x])[r]? = some o) :
    l[r]? = some o ∨ r = l.length ∧ o = x := by
  by_cases hr : r < l.length
  · rw [List.getElem?_append_left hr] at h; exact .inl h
  · rw [List.getElem?_append_right (by omega)] at h
    cases hd : r - l.length with
    | zero => rw [hd] at h; simp at h; exact .inr ⟨by omega, h.symm⟩
    | succ n => rw [hd] at h; simp at h

theorem getElem?_left {X : Type} {l : List X} {x o : X} {r : Nat} (h : l[r]? = some o) : (l ++ [x])[r]? = some o := by
  have : r < l.length := by
    apply Classical.byContradiction
    intro hn
    rw [List.getElem?_eq_none (by omega)] at h
    simp at h
  rw [List.getElem?_append_left this]
  exact h

theorem StoreInv.snoc {st : Store A F} (h : StoreInv st) (x : Obj A F)
    (hx : ∀ s, x.of = some s → ∃ p, st[s]? = some p ∧ p.of = none ∧ x.attrs = p.attrs) : StoreInv (st ++ [x]) := by
  have hl := h.len
  refine ⟨by rw [List.length_append]; omega, ?_, ?_, ?_⟩
  · intro r o hr ho
    rcases getElem?_snoc ho with ho | ⟨rfl, _⟩
    · exact h.plain r o hr ho
    · omega
  · intro r o h7 hr ho
    rcases getElem?_snoc ho with ho | ⟨rfl, _⟩
    · exact h.const r o h7 hr ho
    · omega
  · intro r o s ho hs
    rcases getElem?_snoc ho with ho | ⟨_, rfl⟩
    · obtain ⟨p, hp, h1, h2⟩ := h.target r o s ho hs
      exact ⟨p, getElem?_left hp, h1, h2⟩
    · obtain ⟨p, hp, h1, h2⟩ := hx s hs
      exact ⟨p, getElem?_left hp, h1, h2⟩

/-- Two stores differ in features and inventories only. -/
def SameBones (st st' : Store A F) : Prop :=
  st'.length = st.length ∧ ∀ (r : Nat) (o : Obj A F), st[r]? = some o → ∃ o' : Obj A F, st'[r]? = some o' ∧ o'.of = o.of ∧ o'.attrs = o.attrs

theorem StoreInv.same {st st' : Store A F} (h : StoreInv st) (hs : SameBones st st') : StoreInv st' := by
  have back : ∀ (r : Nat) (o' : Obj A F), st'[r]? = some o' → ∃ o : Obj A F, st[r]? = some o ∧ o'.of = o.of ∧ o'.attrs = o.attrs := by
    intro r o' ho'
    have hr : r < st'.length := by
      apply Classical.byContradiction
      intro hn
      rw [List.getElem?_eq_none (by omega)] at ho'
      simp at ho'
    have hr' : r < st.length := hs.1 ▸ hr
    have : st[r]? = some st[r] := List.getElem?_eq_getElem hr'
    obtain ⟨o'', h1, h2⟩ := hs.2 r _ this
    rw [ho'] at h1
    cases h1
    exact ⟨_, this, h2⟩
  refine ⟨by rw [hs.1]; exact h.len, ?_, ?_, ?_⟩
  · intro r o' hr ho'
    obtain ⟨o, ho, h1, _⟩ := back r o' ho'
    rw [h1]; exact h.plain r o hr ho
  · intro r o' h7 hr ho'
    obtain ⟨o, ho, h1, _⟩ := back r o' ho'
    rw [h1]; exact h.const r o h7 hr ho
  · intro r o' s ho' hs'
    obtain ⟨o, ho, h1, h2⟩ := back r o' ho'
    obtain ⟨p, hp, h3, h4⟩ := h.target r o s ho (h1 ▸ hs')
    obtain ⟨p', hp', h5, h6⟩ := hs.2 s p hp
    exact ⟨p', hp', by rw [h5]; exact h3, by rw [h2, h4, h6]⟩

theorem same_modify (st : Store A F) (r : Nat) (f : Obj A F → Obj A F)
    (hf : ∀ o, (f o).of = o.of ∧ (f o).attrs = o.attrs) : SameBones st (st.modify r f) := by
  refine ⟨List.length_modify .., ?_⟩
  intro k o ho
  rw [List.getElem?_modify, ho]
  by_cases hk : r = k
  · exact ⟨f o, by simp [hk], hf o⟩
  · exact ⟨o, by simp [hk], rfl, rfl⟩

theorem start_inv (ctrl : Fin 7 → A × F) : StoreInv (start ctrl) := by
  refine ⟨by simp [start], ?_, ?_, ?_⟩
  · intro r o hr ho
    unfold start at ho
    rw [List.getElem?_append_left (by simpa using hr)] at ho
    rw [List.getElem?_map, Option.map_eq_some_iff] at ho
    obtain ⟨i, _, rfl⟩ := ho
    rfl
  · intro r o h7 hr ho
    unfold start at ho
    rw [List.getElem?_append_right (by simpa using h7)] at ho
    rw [List.getElem?_map, Option.map_eq_some_iff] at ho
    obtain ⟨i, hi, rfl⟩ := ho
    have : i.val = r - 7 := by
      have := List.getElem?_eq_some_iff.1 hi
      obtain ⟨_, h⟩ := this
      simp at h
      rw [← h]
    simp [this]
  · intro r o s ho hs
    unfold start at ho
    by_cases hr : r < 7
    · rw [List.getElem?_append_left (by simpa using hr)] at ho
      rw [List.getElem?_map, Option.map_eq_some_iff] at ho
      obtain ⟨i, _, rfl⟩ := ho
      simp at hs
    · rw [List.getElem?_append_right (by simpa using Nat.le_of_not_lt hr)] at ho
      rw [List.getElem?_map, Option.map_eq_some_iff] at ho
      obtain ⟨i, hi, rfl⟩ := ho
      have hs' : i.val = s := by simpa using hs
      refine ⟨⟨(ctrl i).1, (ctrl i).2, 0, none⟩, ?_, rfl, rfl⟩
      unfold start
      rw [List.getElem?_append_left (by simp; omega), List.getElem?_map]
      have : (List.finRange 7)[s]? = some i := by
        rw [List.getElem?_eq_some_iff]
        exact ⟨by simp; omega, by simp; exact Fin.ext hs'.symm⟩
      rw [this]; rfl

theorem atomic_inv {st st' : Store A F} {r i : Nat} (h : StoreInv st) (ha : atomic st r = some (st', i)) :
    StoreInv st' := by
  unfold atomic at ha
  cases ho : st[r]? with
  | none => rw [ho] at ha; simp at ha
  | some o =>
    rw [ho] at ha
    simp only [Option.map_some, Option.some.injEq, Prod.mk.injEq] at ha
    obtain ⟨rfl, _⟩ := ha
    refine h.snoc _ ?_
    intro s hs
    simp only [Option.some.injEq] at hs
    cases hof : o.of with
    | none => rw [hof] at hs; simp at hs; subst hs; exact ⟨o, ho, hof, rfl⟩
    | some k =>
      rw [hof] at hs
      simp at hs
      subst hs
      exact h.target r o k ho hof

theorem instance_inv {st st' : Store A F} {r i : Nat} (h : StoreInv st) (ha : getInstance st r = some (st', i)) :
    StoreInv st' := by
  unfold getInstance at ha
  split at ha
  · simp at ha; rw [← ha.1]; exact h
  · split at ha
    · simp at ha; rw [← ha.1]; exact h
    · exact atomic_inv h ha

theorem act_inv {st : Store A F} (h : StoreInv st) (x : Act A F) : StoreInv (act st x) := by
  cases x with
  | newSymbol a f => exact h.snoc _ (by intro s hs; simp at hs)
  | atomic r =>
    show StoreInv (((atomic st r).map (·.1)).getD st)
    cases ha : atomic st r with
    | none => exact h
    | some p => exact atomic_inv (i := p.2) h ha
  | «instance» r =>
    show StoreInv (((getInstance st r).map (·.1)).getD st)
    cases ha : getInstance st r with
    | none => exact h
    | some p => exact instance_inv (i := p.2) h ha
  | setFeatures r f => exact h.same (same_modify st r _ fun _ => ⟨rfl, rfl⟩)
  | setInventory r i => exact h.same (same_modify st r _ fun _ => ⟨rfl, rfl⟩)

theorem run_inv (ctrl : Fin 7 → A × F) (acts : List (Act A F)) : StoreInv (run ctrl acts) := by
  unfold run
  generalize hs : start ctrl = st
  have h : StoreInv st := hs ▸ start_inv ctrl
  clear hs
  induction acts generalizing st with
  | nil => exact h
  | cons x xs ih => exact ih _ (act_inv h x)

/-- C137: the attribute `symbol` of any object is a symbol that is no `Atomic`, with the same alias, text, raw,
index and name, however the object was made; of such a symbol it is the symbol itself. -/
theorem C137_symbol (ctrl : Fin 7 → A × F) (acts : List (Act A F)) (r : Nat) (o : Obj A F)
    (ho : (run ctrl acts)[r]? = some o) :
    ∃ s p, symbolOf (run ctrl acts) r = some s ∧ (run ctrl acts)[s]? = some p ∧ p.of = none ∧
      p.attrs = o.attrs ∧ symbolOf (run ctrl acts) s = some s ∧ (o.of = none → s = r) := by
  have h := run_inv ctrl acts
  revert h ho
  generalize run ctrl acts = st
  intro ho h
  cases hof : o.of with
  | none => exact ⟨r, o, by simp [symbolOf, ho, hof], ho, hof, rfl, by simp [symbolOf, ho, hof], fun _ => rfl⟩
  | some s =>
    obtain ⟨p, hp, h1, h2⟩ := h.target r o s ho hof
    exact ⟨s, p, by simp [symbolOf, ho, hof], hp, h1, h2.symm, by simp [symbolOf, hp, h1], by simp⟩

theorem control_iff {st : Store A F} (h : StoreInv st) {r s : Nat} (hs : symbolOf st r = some s) :
    isControl st r = decide (s < 7) := by
  unfold symbolOf at hs
  unfold isControl
  cases ho : st[r]? with
  | none => rw [ho] at hs; simp at hs
  | some o =>
    rw [ho] at hs
    simp only [Option.map_some, Option.some.injEq] at hs
    cases hof : o.of with
    | none =>
      rw [hof] at hs; simp at hs; subst hs
      simp only [hof]; rfl
    | some k =>
      rw [hof] at hs; simp at hs; subst hs
      simp only [hof]
      rw [Bool.eq_iff_iff, Bool.or_eq_true, decide_eq_true_eq, decide_eq_true_eq, decide_eq_true_eq]
      show (7 ≤ r ∧ r < 14) ∨ k < 7 ↔ k < 7
      constructor
      · rintro (hr | hk)
        · have := h.const r o hr.1 hr.2 ho
          rw [hof] at this
          have : k = r - 7 := by simpa using this
          omega
        · exact hk
      · exact .inr

/-- C137: an object stands for its symbol: what it says of itself is what `Verif.Model.Expression` says of the
`Atomic` of that symbol. -/
theorem C137_refines (ctrl : Fin 7 → A × F) (acts : List (Act A F)) (r s : Nat)
    (hs : symbolOf (run ctrl acts) r = some s) :
    (∃ l, symbols (run ctrl acts) r = some l ∧ Expr.symbols (.sym s) = l.map fun x => x.map Expr.Tok.sy) ∧
    isControl (run ctrl acts) r = Expr.isControl s ∧
    isConst 0 (run ctrl acts) r = (s == Expr.eps) ∧
    isConst 5 (run ctrl acts) r = Expr.isNor (.sym s) := by
  refine ⟨⟨[[s]], by simp [symbols, hs], by simp [Expr.symbols]⟩, ?_, ?_, ?_⟩
  · rw [control_iff (run_inv ctrl acts) hs]; rfl
  · simp [isConst, hs, Expr.eps]
  · simp [isConst, hs, Expr.isNor, Expr.nor]

/-- C137: an instance is an `Atomic` of the same symbol as its argument, with the same alias, text, raw, index
and name; it is a control exactly if the argument is. -/
theorem C137_instance (ctrl : Fin 7 → A × F) (acts : List (Act A F)) (r : Nat) (o : Obj A F)
    (ho : (run ctrl acts)[r]? = some o) :
    ∃ st i o', getInstance (run ctrl acts) r = some (st, i) ∧ st[i]? = some o' ∧ o'.of.isSome ∧
      symbolOf st i = symbolOf (run ctrl acts) r ∧ o'.attrs = o.attrs ∧
      isControl st i = isControl (run ctrl acts) r ∧
      (∀ (k : Nat) (q : Obj A F), (run ctrl acts)[k]? = some q → st[k]? = some q) := by
  have h := run_inv ctrl acts
  revert h ho
  generalize run ctrl acts = st
  intro ho h
  have hr : r < st.length := by
    apply Classical.byContradiction
    intro hn
    rw [List.getElem?_eq_none (by omega)] at ho
    simp at ho
  by_cases h7 : r < 7
  · have hl := h.len
    have hc : st[r + 7]? = some st[r + 7] := List.getElem?_eq_getElem (by omega)
    have hof := h.const (r + 7) _ (by omega) (by omega) hc
    rw [Nat.add_sub_cancel] at hof
    have hp := h.plain r o h7 ho
    obtain ⟨p, hp', _, ha⟩ := h.target (r + 7) _ r hc hof
    rw [ho] at hp'; cases hp'
    have e1 : symbolOf st (r + 7) = some r := by simp [symbolOf, hc, hof]
    have e2 : symbolOf st r = some r := by simp [symbolOf, ho, hp]
    exact ⟨st, r + 7, _, by simp [getInstance, controls, h7], hc, by simp [hof], by rw [e1, e2], ha,
      by rw [control_iff h e1, control_iff h e2], fun k q hq => hq⟩
  · by_cases h14 : r < 14
    · have hof := h.const r o (by omega) h14 ho
      exact ⟨st, r, o, by simp [getInstance, controls, h7, h14], ho, by simp [hof], rfl, rfl, rfl,
        fun k q hq => hq⟩
    · have ha : getInstance st r = some (st ++ [⟨o.attrs, o.features, 0, some (o.of.getD r)⟩], st.length) := by
        simp [getInstance, controls, h7, h14, atomic, ho]
      have hi := instance_inv h ha
      have e : (st ++ [(⟨o.attrs, o.features, 0, some (o.of.getD r)⟩ : Obj A F)])[st.length]? =
          some ⟨o.attrs, o.features, 0, some (o.of.getD r)⟩ := by simp
      have e1 : symbolOf (st ++ [(⟨o.attrs, o.features, 0, some (o.of.getD r)⟩ : Obj A F)]) st.length =
          some (o.of.getD r) := by simp [symbolOf]
      have e2 : symbolOf st r = some (o.of.getD r) := by simp [symbolOf, ho]
      exact ⟨_, _, _, ha, e, rfl, by rw [e1, e2], rfl, by rw [control_iff hi e1, control_iff h e2],
        fun k q hq => getElem?_left hq⟩

/-- C137: the instance of a control symbol and that of its constant are the constant, and nothing is made; any
other object gets a new instance, with the features it has then and in no inventory. -/
theorem C137_constant_partial (ctrl : Fin 7 → A × F) (acts : List (Act A F)) :
    (∀ k, k < 7 → ∃ c, symbolOf (run ctrl acts) c = some k ∧ c ≠ k ∧
      getInstance (run ctrl acts) k = some (run ctrl acts, c) ∧
      getInstance (run ctrl acts) c = some (run ctrl acts, c)) ∧
    ∀ (r : Nat) (o : Obj A F), 14 ≤ r → (run ctrl acts)[r]? = some o → ∃ st i o', getInstance (run ctrl acts) r = some (st, i) ∧
      (run ctrl acts)[i]? = none ∧ st[i]? = some o' ∧ o'.features = o.features ∧ o'.inventory = 0 := by
  have h := run_inv ctrl acts
  revert h
  generalize run ctrl acts = st
  intro h
  constructor
  · intro k hk
    have hl := h.len
    have hc : st[k + 7]? = some st[k + 7] := List.getElem?_eq_getElem (by omega)
    have hof := h.const (k + 7) _ (by omega) (by omega) hc
    refine ⟨k + 7, by simp [symbolOf, hc, hof], by omega, by simp [getInstance, controls, hk], ?_⟩
    unfold getInstance controls
    rw [if_neg (by omega), if_pos (by omega)]
  · intro r o hr ho
    refine ⟨st ++ [⟨o.attrs, o.features, 0, some (o.of.getD r)⟩], st.length,
      ⟨o.attrs, o.features, 0, some (o.of.getD r)⟩, ?_, by simp, by simp, rfl, rfl⟩
    unfold getInstance controls
    rw [if_neg (by omega), if_neg (by omega)]
    simp [atomic, ho]

/-- C137: nothing changes the symbol, alias, text, raw, index and name of an object. -/
theorem C137_stable (ctrl : Fin 7 → A × F) (acts more : List (Act A F)) (r : Nat) (o : Obj A F)
    (ho : (run ctrl acts)[r]? = some o) : ∃ o', (run ctrl (acts ++ more))[r]? = some o' ∧ o'.of = o.of ∧
      o'.attrs = o.attrs := by
  unfold run at ho ⊢
  rw [List.foldl_append]
  revert ho
  generalize acts.foldl act (start ctrl) = st
  intro ho
  induction more generalizing st o with
  | nil => exact ⟨o, ho, rfl, rfl⟩
  | cons x xs ih =>
    have step : ∃ o', (act st x)[r]? = some o' ∧ o'.of = o.of ∧ o'.attrs = o.attrs := by
      cases x with
      | newSymbol a f => exact ⟨o, getElem?_left ho, rfl, rfl⟩
      | atomic k =>
        show ∃ o', (((atomic st k).map (·.1)).getD st)[r]? = some o' ∧ _
        unfold atomic
        cases st[k]? with
        | none => exact ⟨o, ho, rfl, rfl⟩
        | some q => exact ⟨o, getElem?_left ho, rfl, rfl⟩
      | «instance» k =>
        show ∃ o', (((getInstance st k).map (·.1)).getD st)[r]? = some o' ∧ _
        unfold getInstance
        split
        · exact ⟨o, ho, rfl, rfl⟩
        · split
          · exact ⟨o, ho, rfl, rfl⟩
          · unfold atomic
            cases st[k]? with
            | none => exact ⟨o, ho, rfl, rfl⟩
            | some q => exact ⟨o, getElem?_left ho, rfl, rfl⟩
      | setFeatures k f =>
        exact (same_modify st k (fun o => { o with features := f }) fun _ => ⟨rfl, rfl⟩).2 r o ho
      | setInventory k i =>
        exact (same_modify st k (fun o => { o with inventory := i }) fun _ => ⟨rfl, rfl⟩).2 r o ho
    obtain ⟨o₁, h1, h2, h3⟩ := step
    obtain ⟨o₂, h4, h5, h6⟩ := ih _ _ h1
    exact ⟨o₂, h4, h5.trans h2, h6.trans h3⟩

/-- C137: a change of the features of one object is seen in no other, so not in the instances of a symbol. -/
theorem C137_features (ctrl : Fin 7 → A × F) (acts : List (Act A F)) (r k : Nat) (f : F) (o : Obj A F)
    (ho : (run ctrl acts)[k]? = some o) : ∃ o', (run ctrl (acts ++ [.setFeatures r f]))[k]? = some o' ∧
      o'.features = if k = r then f else o.features := by
  unfold run at ho ⊢
  rw [List.foldl_append]
  revert ho
  generalize acts.foldl act (start ctrl) = st
  intro ho
  show ∃ o', (st.modify r _)[k]? = some o' ∧ _
  rw [List.getElem?_modify, ho]
  by_cases hk : r = k
  · exact ⟨{ o with features := f }, by simp [hk], by simp [hk]⟩
  · exact ⟨o, by simp [hk], by simp [Ne.symm hk]⟩

/-- C137 fails: the instance of an `Atomic` that is a control can be a new object. -/
theorem C137_constant_violated (ctrl : Fin 7 → A × F) : ∃ (acts : List (Act A F)) (r : Nat),
    isControl (run ctrl acts) r = true ∧ isConst 0 (run ctrl acts) r = true ∧
    ∃ st i, getInstance (run ctrl acts) r = some (st, i) ∧ (run ctrl acts)[i]? = none := by
  refine ⟨[.atomic 0], 14, rfl, rfl, _, _, rfl, rfl⟩

example : symbolOf (run (fun _ => ((), ())) [.newSymbol () (), .instance 14, .atomic 15, .instance 16]) 17 = some 14 := by
  decide

end Nisaba.Props
