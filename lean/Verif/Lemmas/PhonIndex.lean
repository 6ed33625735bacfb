import Verif.Model.PhonIndex
import Verif.Props.Inventory
/-! # Invariants of the inventories of phonemes -/
namespace Nisaba.PhonIndex
open Nisaba.Inv Nisaba.Props

/-- What one call does to one inventory. -/
theorem addSymbol_cases (s : PhonInv) (p : Nat) (a : String) (x : Nat) :
    (s.addSymbol p a x).1 = s ∨
    (s.inv.hasKey a = false ∧ Item.phon p ∉ s.inv.items ∧ s.inv.valid (.phon p) = true ∧
      (s.addSymbol p a x).1.lang = s.lang ∧
      (s.addSymbol p a x).1.inv =
        { s.inv with dict := s.inv.dict ++ [(a, .val (.phon p))], items := s.inv.items ++ [.phon p],
                     itemAliases := s.inv.itemAliases ++ [a] } ∧
      ((s.addSymbol p a x).1.inv.hasKey "_add_to_dicts" = false →
        (s.addSymbol p a x).1.indexDict = (x, p) :: s.indexDict)) := by
  unfold PhonInv.addSymbol
  split
  · left; rfl
  · rcases addItem_cases s.inv a (.phon p) with ⟨h1, h2⟩ | ⟨hk, hv, hn, he⟩
    · left
      split
      · next i h => rw [h] at h2; exact absurd rfl h2
      · next i h => rw [h] at h1; cases h1; rfl
      · next i e h => rw [h] at h1; cases h1; rfl
    · right
      rw [he]
      refine ⟨hk, hn, hv, ?_⟩
      simp only
      split
      · next e hm =>
        refine ⟨rfl, rfl, ?_⟩
        intro hf
        simp only at hf
        simp [Inventory.method, hf] at hm
      · exact ⟨rfl, rfl, fun _ => rfl⟩

/-- The index that a phoneme gets in an inventory with `k` phonemes. -/
def idx (lang k : Nat) : Nat := 3000000 + 100 * lang + k + 1

/-- The three outcomes of a call for the inventory with number `j`. -/
theorem step_cases (w : State) (o : Op) :
    ((w.step o).phons = w.phons ∨ ∃ i p s y, o = .add i p ∧ w.invs[i]? = some s ∧
      w.phons[p]? = some y ∧
      (w.step o).phons = w.phons.set p { y with lang := s.lang, index := idx s.lang s.inv.items.length }) ∧
    (w.step o).invs.length = w.invs.length ∧
    ∀ j s', (w.step o).invs[j]? = some s' → ∃ s, w.invs[j]? = some s ∧ s'.lang = s.lang ∧
      (s' = s ∨
        (∃ a n, o = .suppl j a n ∧ s'.indexDict = s.indexDict ∧ s'.inv.items = s.inv.items ∧
          s'.inv.dict = s.inv.dict ++ [(a, .val (.obj n))]) ∨
        (∃ p y, o = .add j p ∧ w.phons[p]? = some y ∧
          (w.step o).phons =
            w.phons.set p { y with lang := s.lang, index := idx s.lang s.inv.items.length } ∧
          Item.phon p ∉ s.inv.items ∧
          s'.inv.items = s.inv.items ++ [.phon p] ∧
          s'.inv.dict = s.inv.dict ++ [(y.alias, .val (.phon p))] ∧
          (s'.inv.hasKey "_add_to_dicts" = false →
            s'.indexDict = (idx s.lang s.inv.items.length, p) :: s.indexDict))) := by
  have same : ∀ (w' : State), w'.invs = w.invs → ∀ (j : Nat) (s' : PhonInv), w'.invs[j]? = some s' →
      ∃ s : PhonInv, w.invs[j]? = some s ∧ s'.lang = s.lang ∧ (s' = s) := by
    intro w' h j s' hs
    rw [h] at hs
    exact ⟨s', hs, rfl, rfl⟩
  cases o with
  | suppl i a n =>
    unfold State.step
    simp only
    split
    · refine ⟨.inl rfl, rfl, fun j s' hs => ?_⟩
      obtain ⟨s, h1, h2, h3⟩ := same w rfl j s' hs
      exact ⟨s, h1, h2, .inl h3⟩
    · next s hi =>
      refine ⟨.inl rfl, by simp, fun j s' hs => ?_⟩
      simp only [List.getElem?_set] at hs
      split at hs
      · next hij =>
        subst hij
        split at hs
        · cases hs
          refine ⟨s, hi, rfl, ?_⟩
          rcases makeSuppl_cases s.inv a (.obj n) with ⟨h1, _⟩ | ⟨_, he⟩
          · left; rw [h1]
          · right; left
            exact ⟨a, n, rfl, rfl, by rw [he], by rw [he]⟩
        · cases hs
      · exact ⟨s', hs, rfl, .inl rfl⟩
  | add i p =>
    unfold State.step
    simp only
    split
    · refine ⟨.inl rfl, rfl, fun j s' hs => ?_⟩
      obtain ⟨s, h1, h2, h3⟩ := same w rfl j s' hs
      exact ⟨s, h1, h2, .inl h3⟩
    · next s hi =>
      split
      · refine ⟨.inl rfl, rfl, fun j s' hs => ?_⟩
        obtain ⟨s, h1, h2, h3⟩ := same w rfl j s' hs
        exact ⟨s, h1, h2, .inl h3⟩
      · unfold State.addPhoneme
        rw [hi]
        cases hp : w.phons[p]? with
        | none =>
          refine ⟨.inl rfl, rfl, fun j s' hs => ?_⟩
          obtain ⟨s, h1, h2, h3⟩ := same w rfl j s' hs
          exact ⟨s, h1, h2, .inl h3⟩
        | some y =>
          have hx : phonemePrefix + s.lang * langPrefixMultiplier + s.inv.items.length + 1 =
              idx s.lang s.inv.items.length := by
            simp only [phonemePrefix, langPrefixMultiplier, idx]; omega
          simp only [hx]
          split
          · refine ⟨.inr ⟨i, p, s, y, rfl, hi, hp, rfl⟩, rfl, fun j s' hs => ?_⟩
            exact ⟨s', hs, rfl, .inl rfl⟩
          · refine ⟨.inr ⟨i, p, s, y, rfl, hi, hp, rfl⟩, by simp, fun j s' hs => ?_⟩
            simp only [List.getElem?_set] at hs
            split at hs
            · next hij =>
              subst hij
              split at hs
              · cases hs
                rcases addSymbol_cases s p y.alias (idx s.lang s.inv.items.length) with
                  h | ⟨_, hn, _, hl, he, hd⟩
                · exact ⟨s, hi, by rw [h], .inl h⟩
                · refine ⟨s, hi, hl, .inr (.inr ⟨p, y, rfl, hp, rfl, hn, by rw [he], by rw [he], hd⟩)⟩
              · cases hs
            · exact ⟨s', hs, rfl, .inl rfl⟩

theorem run_snoc (w : State) (os : List Op) (o : Op) : w.run (os ++ [o]) = (w.run os).step o := by
  simp [State.run]

/-- Induction over the history from the end. -/
theorem run_induction {w : State} {P : List Op → State → Prop} (h0 : P [] w)
    (hs : ∀ os o, P os (w.run os) → P (os ++ [o]) ((w.run os).step o)) (os : List Op) :
    P os (w.run os) := by
  have : ∀ n (os : List Op), os.length = n → P os (w.run os) := by
    intro n
    induction n with
    | zero => intro os h; rw [List.length_eq_zero_iff.1 h]; exact h0
    | succ n ih =>
      intro os h
      obtain ⟨l, a, rfl⟩ : ∃ l a, os = l ++ [a] := by
        rcases List.eq_nil_or_concat os with rfl | ⟨l, a, rfl⟩
        · simp at h
        · exact ⟨l, a, by simp⟩
      rw [run_snoc]
      exact hs l a (ih l (by simpa using h))
  exact this _ os rfl

/-- The entries that the dictionary of indices should have for phonemes `ps`, newest first. -/
def entries (lang : Nat) (ps : List Nat) : List (Nat × Nat) :=
  (ps.zipIdx.map fun e => (idx lang e.2, e.1)).reverse

theorem entries_snoc (L : Nat) (ps : List Nat) (p : Nat) :
    entries L (ps ++ [p]) = (idx L ps.length, p) :: entries L ps := by
  simp [entries, List.zipIdx_append]

structure Good (s : PhonInv) : Prop where
  items : s.inv.items = s.phonemes.map .phon
  nodup : s.phonemes.Nodup
  dict : s.inv.hasKey "_add_to_dicts" = false → s.indexDict = entries s.lang s.phonemes

theorem phonemes_map (ps : List Nat) :
    (ps.map Item.phon).filterMap (fun v => match v with | .phon p => some p | .obj _ => none) = ps := by
  induction ps with
  | nil => rfl
  | cons p ps ih => rw [List.map_cons, List.filterMap_cons]; simp only [ih]

theorem new_good (L : Nat) : Good (PhonInv.new L) := by
  refine ⟨rfl, List.nodup_nil, fun _ => rfl⟩

theorem hasKey_mono {s t : Inventory Item} {k a : String} {f : Field Item}
    (h : t.dict = s.dict ++ [(a, f)]) (ht : t.hasKey k = false) : s.hasKey k = false := by
  cases hs : s.hasKey k with
  | false => rfl
  | true => rw [hasKey_snoc hs h] at ht; cases ht

theorem run_good (phons : List Phon) (langs : List Nat) (os : List Op) :
    ∀ s ∈ ((State.new phons langs).run os).invs, Good s := by
  refine run_induction (P := fun _ w => ∀ s ∈ w.invs, Good s) ?_ ?_ os
  · intro s hs
    obtain ⟨L, _, rfl⟩ := List.mem_map.1 hs
    exact new_good L
  · intro os o ih s' hs'
    obtain ⟨j, hj⟩ := List.mem_iff_getElem?.1 hs'
    obtain ⟨s, hs, hl, h⟩ := (step_cases _ o).2.2 j s' hj
    have g := ih s (List.mem_of_getElem? hs)
    rcases h with rfl | ⟨a, n, _, hd, hi, hk⟩ | ⟨p, y, _, _, _, hn, hi, hk, hd⟩
    · exact g
    · have hp : s'.phonemes = s.phonemes := by simp only [PhonInv.phonemes, hi]
      refine ⟨by rw [hi, hp, g.items], by rw [hp]; exact g.nodup, fun hf => ?_⟩
      rw [hd, hp, hl]; exact g.dict (hasKey_mono hk hf)
    · have hp : s'.phonemes = s.phonemes ++ [p] := by
        have : s'.inv.items = (s.phonemes ++ [p]).map Item.phon := by
          rw [hi, g.items, List.map_append]
          simp
        unfold PhonInv.phonemes
        rw [this]
        exact phonemes_map _
      have hlen : s.inv.items.length = s.phonemes.length := by
        conv => lhs; rw [g.items]
        simp
      refine ⟨by rw [hi, hp, g.items]; simp, ?_, fun hf => ?_⟩
      · rw [hp, List.nodup_append]
        refine ⟨g.nodup, by simp, ?_⟩
        intro x hx z hz
        simp only [List.mem_singleton] at hz
        subst hz
        rintro rfl
        exact hn (by rw [g.items]; exact List.mem_map_of_mem hx)
      · rw [hd hf, hp, hl, entries_snoc, hlen, g.dict (hasKey_mono hk hf)]

theorem entries_mem {L : Nat} {ps : List Nat} {n p : Nat} :
    (n, p) ∈ entries L ps ↔ ∃ k, ps[k]? = some p ∧ n = idx L k := by
  simp only [entries, List.mem_reverse, List.mem_map, Prod.mk.injEq, Prod.exists,
    List.mem_zipIdx_iff_getElem?]
  constructor
  · rintro ⟨a, k, h, rfl, rfl⟩; exact ⟨k, h, rfl⟩
  · rintro ⟨k, h, rfl⟩; exact ⟨p, k, h, rfl, rfl⟩

theorem entries_find {L : Nat} {ps : List Nat} {n : Nat} {p : Nat} :
    ((entries L ps).find? (fun e => e.1 == n)).map (·.2) = some p ↔
      ∃ k, ps[k]? = some p ∧ n = idx L k := by
  constructor
  · intro h
    obtain ⟨⟨a, b⟩, he, rfl⟩ := Option.map_eq_some_iff.1 h
    have h1 : a = n := by simpa using List.find?_some he
    subst h1
    exact entries_mem.1 (List.mem_of_find?_eq_some he)
  · intro h
    have hm := entries_mem.2 h
    obtain ⟨e, he⟩ : ∃ e, (entries L ps).find? (fun e => e.1 == n) = some e := by
      cases hf : (entries L ps).find? (fun e => e.1 == n) with
      | some e => exact ⟨e, rfl⟩
      | none => exact absurd (List.find?_eq_none.1 hf _ hm) (by simp)
    rw [he]
    obtain ⟨a, b⟩ := e
    have h1 : a = n := by simpa using List.find?_some he
    subst h1
    obtain ⟨k, hk, hn⟩ := h
    obtain ⟨k', hk', hn'⟩ := entries_mem.1 (List.mem_of_find?_eq_some he)
    have : k = k' := by simp only [idx] at hn hn'; omega
    subst this
    rw [hk] at hk'
    exact hk'.symm

/-- Keys of an inventory come from the constructor and from the aliases that were passed. -/
theorem run_keys (phons : List Phon) (langs : List Nat) (os : List Op) (k : String)
    (hp : ∀ y ∈ phons, y.alias ≠ k) (ho : ∀ i n, Op.suppl i k n ∉ os) (h0 : (PhonInv.new 0).inv.hasKey k = false) :
    (∀ y ∈ ((State.new phons langs).run os).phons, y.alias ≠ k) ∧
    ∀ s ∈ ((State.new phons langs).run os).invs, s.inv.hasKey k = false := by
  refine run_induction (P := fun os w => (∀ i n, Op.suppl i k n ∉ os) →
    (∀ y ∈ w.phons, y.alias ≠ k) ∧ ∀ s ∈ w.invs, s.inv.hasKey k = false) ?_ ?_ os ho
  · intro _
    refine ⟨hp, fun s hs => ?_⟩
    obtain ⟨L, _, rfl⟩ := List.mem_map.1 hs
    exact h0
  · intro os o ih ho
    obtain ⟨ihp, ihs⟩ := ih (fun i n hm => ho i n (List.mem_append_left _ hm))
    obtain ⟨hph, _, hin⟩ := step_cases ((State.new phons langs).run os) o
    refine ⟨?_, ?_⟩
    · rcases hph with h | ⟨i, p, s, y, _, _, hy, h⟩
      · rw [h]; exact ihp
      · rw [h]
        intro z hz
        rcases List.mem_or_eq_of_mem_set hz with hz | rfl
        · exact ihp z hz
        · exact ihp y (List.mem_of_getElem? hy)
    · intro s' hs'
      obtain ⟨j, hj⟩ := List.mem_iff_getElem?.1 hs'
      obtain ⟨s, hs, _, h⟩ := hin j s' hj
      have hk := ihs s (List.mem_of_getElem? hs)
      have snoc : ∀ a f, s'.inv.dict = s.inv.dict ++ [(a, f)] → a ≠ k → s'.inv.hasKey k = false := by
        intro a f hd hne
        unfold Inventory.hasKey at hk ⊢
        rw [hd, List.any_append, hk]
        simp [hne]
      rcases h with rfl | ⟨a, n, rfl, _, _, hd⟩ | ⟨p, y, _, hy, _, _, _, hd, _⟩
      · exact hk
      · refine snoc _ _ hd ?_
        rintro rfl
        exact ho j n (by simp)
      · exact snoc _ _ hd (ihp y (List.mem_of_getElem? hy))

/-- The phonemes passed to `add_phonemes`. -/
def passed (os : List Op) : List Nat :=
  os.filterMap fun o => match o with | .add _ p => some p | .suppl .. => none

theorem passed_snoc (os : List Op) (o : Op) : passed (os ++ [o]) = passed os ++ passed [o] := by
  simp [passed]

theorem run_langs (phons : List Phon) (langs : List Nat) (os : List Op) :
    ((State.new phons langs).run os).invs.map (·.lang) = langs := by
  refine run_induction (P := fun _ w => w.invs.map (·.lang) = langs) ?_ ?_ os
  · simp [State.new, Function.comp_def, PhonInv.new]
  · intro os o ih
    obtain ⟨_, hl, hin⟩ := step_cases ((State.new phons langs).run os) o
    refine Eq.trans ?_ ih
    apply List.ext_getElem?
    intro j
    rw [List.getElem?_map, List.getElem?_map]
    cases h : (((State.new phons langs).run os).step o).invs[j]? with
    | none =>
      rw [List.getElem?_eq_none_iff] at h
      rw [List.getElem?_eq_none (by omega)]
    | some s' =>
      obtain ⟨s, hs, hl, _⟩ := hin j s' h
      rw [hs]; simp [hl]

/-- With every phoneme passed at most once, it keeps the index of its place. -/
theorem run_own (phons : List Phon) (langs : List Nat) (os : List Op) (hn : (passed os).Nodup) :
    ∀ s ∈ ((State.new phons langs).run os).invs, ∀ (k p : Nat), s.phonemes[k]? = some p →
      p ∈ passed os ∧ ∃ y, ((State.new phons langs).run os).phons[p]? = some y ∧
        y.index = idx s.lang k ∧ y.lang = s.lang := by
  refine run_induction (P := fun os w => (passed os).Nodup → ∀ s ∈ w.invs, ∀ (k p : Nat),
    s.phonemes[k]? = some p → p ∈ passed os ∧ ∃ y, w.phons[p]? = some y ∧
        y.index = idx s.lang k ∧ y.lang = s.lang) ?_ ?_ os hn
  · intro _ s hs k p h
    obtain ⟨L, _, rfl⟩ := List.mem_map.1 hs
    have : (PhonInv.new L).phonemes = [] := rfl
    rw [this] at h; simp at h
  · intro os o ih hn s' hs' k q hk
    rw [passed_snoc] at hn ⊢
    obtain ⟨hn1, _, hn2⟩ := List.nodup_append.1 hn
    obtain ⟨hph, _, hin⟩ := step_cases ((State.new phons langs).run os) o
    obtain ⟨j, hj⟩ := List.mem_iff_getElem?.1 hs'
    obtain ⟨s, hs, hl, h⟩ := hin j s' hj
    have hsm := List.mem_of_getElem? hs
    have g := run_good phons langs os s hsm
    have keep : ∀ q, s.phonemes[k]? = some q → q ∈ passed os ++ passed [o] ∧
        ∃ y, (((State.new phons langs).run os).step o).phons[q]? = some y ∧
          y.index = idx s'.lang k ∧ y.lang = s'.lang := by
      intro q hq
      obtain ⟨h1, y, hy, h2, h3⟩ := ih hn1 s hsm k q hq
      refine ⟨List.mem_append_left _ h1, y, ?_, by rw [hl]; exact h2, by rw [hl]; exact h3⟩
      rcases hph with h | ⟨i, p, s0, y0, rfl, _, _, h⟩
      · rw [h]; exact hy
      · rw [h, List.getElem?_set_ne]
        · exact hy
        · exact fun e => hn2 q h1 p (by simp [passed]) e.symm
    rcases h with rfl | ⟨a, n, _, _, hi, _⟩ | ⟨p, y, rfl, hy, hset, _, hi, _, _⟩
    · exact keep q hk
    · have hp : s'.phonemes = s.phonemes := by simp only [PhonInv.phonemes, hi]
      exact keep q (by rw [← hp]; exact hk)
    · have hp : s'.phonemes = s.phonemes ++ [p] := by
        have : s'.inv.items = (s.phonemes ++ [p]).map Item.phon := by
          rw [hi, g.items, List.map_append]
          simp
        unfold PhonInv.phonemes
        rw [this]
        exact phonemes_map _
      rw [hp] at hk
      by_cases hlt : k < s.phonemes.length
      · rw [List.getElem?_append_left hlt] at hk
        exact keep q hk
      · have hlt : s.phonemes.length ≤ k := by omega
        rw [List.getElem?_append_right hlt] at hk
        have hk0 : k - s.phonemes.length = 0 := by
          cases e : k - s.phonemes.length with
          | zero => rfl
          | succ n => rw [e] at hk; simp at hk
        rw [hk0] at hk
        have : p = q := by simpa using hk
        subst this
        have hlen : s.inv.items.length = s.phonemes.length := by
          conv => lhs; rw [g.items]
          simp
        refine ⟨by simp [passed], { y with lang := s.lang, index := idx s.lang s.inv.items.length }, ?_,
          ?_, hl.symm⟩
        · rw [hset, List.getElem?_set_self]
          exact (List.getElem?_eq_some_iff.1 hy).1
        · rw [hl, hlen]; simp only; congr 1; omega

end Nisaba.PhonIndex
