import Verif.Lemmas.Profile
/-!
# Invariant of the world of profiles
-/
namespace Nisaba.Feature

/-- What holds of every world that the interface can produce. -/
structure WOk (W : World) : Prop where
  prof : ∀ p ∈ W.objs, ProfOk p W.sets.length
  apart : ∀ (o o' : Nat) (p p' : Prof), W.objs[o]? = some p → W.objs[o']? = some p' → o ≠ o' →
    ∀ r ∈ p.sets.map (·.2), r ∉ p'.sets.map (·.2)
  inv : ∀ p ∈ W.objs, ∀ q ∈ W.objs, p.inv.id = q.inv.id → p.inv = q.inv
  na : ∀ p ∈ W.objs, ∃ q, W.objs[p.inv.na]? = some q ∧ q.inv = p.inv
  mp : ∀ m ∈ W.mps, (m.map (·.1)).Nodup ∧ (m.map (·.2)).Nodup ∧
    ∀ q ∈ m, q.1 ∉ Inv.ownFields ∧ ∃ p, W.objs[q.2]? = some p ∧ p.inv.alias = q.1 ∧ q.2 ≠ p.inv.na
  held : ∀ j j', j ≠ j' → ∀ o ∈ W.members j, o ∉ W.members j'

/-- Only members of sets differ. -/
structure Shape (W W' : World) : Prop where
  objs : W'.objs = W.objs
  mps : W'.mps = W.mps
  length : W'.sets.length = W.sets.length

theorem Shape.refl (W : World) : Shape W W := ⟨rfl, rfl, rfl⟩

theorem Shape.trans {W W' W''} (h : Shape W W') (h' : Shape W' W'') : Shape W W'' :=
  ⟨h'.objs.trans h.objs, h'.mps.trans h.mps, h'.length.trans h.length⟩

theorem shape_write (W : World) (r : Nat) (s : List Nat) : Shape W (W.write r s) :=
  ⟨rfl, rfl, write_length W r s⟩

theorem Shape.ok {W W'} (h : Shape W W') (hW : WOk W) : WOk W' where
  prof := by rw [h.objs, h.length]; exact hW.prof
  apart := by rw [h.objs]; exact hW.apart
  inv := by rw [h.objs]; exact hW.inv
  na := by rw [h.objs]; exact hW.na
  mp := by rw [h.objs, h.mps]; exact hW.mp
  held := by simp only [World.members, h.mps]; exact hW.held

theorem shape_modSets (g) (p : Prof) (fs : List Nat) (as : List PAspect) (W : World) :
    Shape W (modSets g p fs as W) :=
  let h := modSets_frame g p fs as W
  ⟨h.1, h.2.1, h.2.2⟩

theorem shape_update (W : World) (o : Nat) (args : List Arg) : Shape W (W.updateProfile o args) := by
  unfold World.updateProfile
  split
  · rw [updateSets_eq]; exact shape_modSets _ _ _ _ _
  · exact Shape.refl W

theorem ProfOk.mono {p : Prof} {n m : Nat} (h : ProfOk p n) (hnm : n ≤ m) : ProfOk p m :=
  ⟨h.good, h.keys, fun q hq => Nat.lt_of_lt_of_le (h.lt q hq) hnm, h.refs⟩

theorem tableOf_ok {i : FInv} (h : InvGood i) (n : Nat) :
    ProfOk ⟨i, tableOf i n⟩ (n + i.aspects.length) where
  good := h
  keys := tableOf_keys i n
  lt := by
    intro q hq
    have : q.2 ∈ (tableOf i n).map (·.2) := List.mem_map_of_mem hq
    rw [tableOf_refs, List.mem_range'] at this
    obtain ⟨k, hk, e⟩ := this
    omega
  refs := by rw [tableOf_refs]; exact List.nodup_range'

/-- The value of an aspect of a profile that was just made. -/
theorem get_new (W : World) {i : FInv} (h : InvGood i) (args : List Arg) (naD : Bool) {a : PAspect}
    (ha : a ∈ i.aspects) :
    (W.newProfile i args naD).1.get W.objs.length a =
      valOf naD (toSet (Arg.flatL W args)) a := by
  rw [newProfile_eq W h]
  obtain ⟨k, hk, rfl⟩ := List.getElem_of_mem ha
  have hm : ((i.aspects[k]).alias, W.sets.length + k) ∈ tableOf i W.sets.length := by
    unfold tableOf
    rw [List.mem_iff_getElem]
    refine ⟨k, by simp [hk], ?_⟩
    simp [List.getElem_zip]
  have hf := find_of_mem (p := ⟨i, tableOf i W.sets.length⟩)
    (by rw [tableOf_keys]; exact h.aliases) hm
  unfold World.get
  simp only [List.getElem?_append_right (Nat.le_refl _), Nat.sub_self, List.getElem?_cons_zero, hf]
  unfold World.content
  simp only [List.getD_eq_getElem?_getD]
  rw [List.getElem?_append_right (by omega)]
  simp [hk]

theorem objs_new (W : World) {i : FInv} (h : InvGood i) (args : List Arg) (naD : Bool) :
    (W.newProfile i args naD).1.objs = W.objs ++ [⟨i, tableOf i W.sets.length⟩] := by
  rw [newProfile_eq W h]

theorem getElem?_append_some {α : Type} {l m : List α} {o : Nat} {p : α} (h : l[o]? = some p) :
    (l ++ m)[o]? = some p := by
  have : o < l.length := by
    rcases List.getElem?_eq_some_iff.1 h with ⟨h1, _⟩
    exact h1
  rw [List.getElem?_append_left this, h]

theorem lt_of_getElem? {α : Type} {l : List α} {o : Nat} {p : α} (h : l[o]? = some p) :
    o < l.length := (List.getElem?_eq_some_iff.1 h).1

/-- Nothing changes for the objects that are there when a profile is made. -/
theorem get_new_old {W : World} (hW : WOk W) {i : FInv} (h : InvGood i) (args : List Arg)
    (naD : Bool) {o : Nat} (ho : o < W.objs.length) (a : PAspect) :
    (W.newProfile i args naD).1.get o a = W.get o a := by
  rw [newProfile_eq W h]
  unfold World.get
  simp only [List.getElem?_append_left ho]
  cases hp : W.objs[o]? with
  | none => rfl
  | some p =>
    simp only
    cases hf : p.find a.alias with
    | none => rfl
    | some r =>
      simp only [World.content, List.getD_eq_getElem?_getD]
      rw [List.getElem?_append_left]
      exact (hW.prof p (List.mem_of_getElem? hp)).lt _ (mem_of_find hf)

/-- A profile for an inventory is added. -/
theorem ok_new {W : World} (hW : WOk W) {i : FInv} (h : InvGood i)
    (hi : ∀ p ∈ W.objs, p.inv.id = i.id → p.inv = i)
    (hna : i.na = W.objs.length ∨ ∃ q, W.objs[i.na]? = some q ∧ q.inv = i)
    (args : List Arg) (naD : Bool) : WOk (W.newProfile i args naD).1 := by
  rw [newProfile_eq W h]
  have hlen : (W.sets ++ i.aspects.map (valOf naD (toSet (Arg.flatL W args)))).length =
      W.sets.length + i.aspects.length := by simp
  constructor
  · intro p hp
    simp only [hlen]
    rcases List.mem_append.1 hp with hp | hp
    · exact (hW.prof p hp).mono (Nat.le_add_right _ _)
    · simp only [List.mem_singleton] at hp
      subst hp
      exact tableOf_ok h _
  · intro o o' p p' ho ho' hne r hr hr'
    simp only [List.getElem?_append] at ho ho'
    split at ho <;> split at ho'
    · exact hW.apart o o' p p' ho ho' hne r hr hr'
    · next h1 h2 =>
      have e : o' = W.objs.length := by
        have := lt_of_getElem? ho'
        simp at this; omega
      subst e
      simp only [Nat.sub_self, List.getElem?_cons_zero, Option.some.injEq] at ho'
      subst ho'
      rw [tableOf_refs, List.mem_range'] at hr'
      obtain ⟨k, _, e⟩ := hr'
      obtain ⟨q, hq, rfl⟩ := List.mem_map.1 hr
      have := (hW.prof p (List.mem_of_getElem? ho)).lt q hq
      omega
    · next h1 h2 =>
      have e : o = W.objs.length := by
        have := lt_of_getElem? ho
        simp at this; omega
      subst e
      simp only [Nat.sub_self, List.getElem?_cons_zero, Option.some.injEq] at ho
      subst ho
      rw [tableOf_refs, List.mem_range'] at hr
      obtain ⟨k, _, e⟩ := hr
      obtain ⟨q, hq, rfl⟩ := List.mem_map.1 hr'
      have := (hW.prof p' (List.mem_of_getElem? ho')).lt q hq
      omega
    · next h1 h2 =>
      have h3 := lt_of_getElem? ho
      have h4 := lt_of_getElem? ho'
      simp at h3 h4
      omega
  · intro p hp q hq e
    simp only [List.mem_append, List.mem_singleton] at hp hq
    rcases hp with hp | rfl <;> rcases hq with hq | rfl
    · exact hW.inv p hp q hq e
    · exact hi p hp e
    · exact (hi q hq e.symm).symm
    · rfl
  · intro p hp
    simp only [List.mem_append, List.mem_singleton] at hp
    rcases hp with hp | rfl
    · obtain ⟨q, hq, e⟩ := hW.na p hp
      exact ⟨q, getElem?_append_some hq, e⟩
    · rcases hna with hna | ⟨q, hq, e⟩
      · refine ⟨⟨i, tableOf i W.sets.length⟩, ?_, rfl⟩
        simp only
        rw [hna]
        simp
      · exact ⟨q, getElem?_append_some hq, e⟩
  · intro m hm
    obtain ⟨h1, h2, h3⟩ := hW.mp m hm
    refine ⟨h1, h2, fun q hq => ?_⟩
    obtain ⟨h4, p, hp, e⟩ := h3 q hq
    exact ⟨h4, p, getElem?_append_some hp, e⟩
  · exact hW.held

theorem WOk.good {W : World} (hW : WOk W) {o : Nat} {p : Prof} (ho : W.objs[o]? = some p) :
    ProfOk p W.sets.length := hW.prof p (List.mem_of_getElem? ho)

/-- Every profile of a reachable world can serve to make further profiles of its inventory. -/
theorem ok_new_inv {W : World} (hW : WOk W) {o : Nat} {p : Prof} (ho : W.objs[o]? = some p)
    (args : List Arg) (naD : Bool) : WOk (W.newProfile p.inv args naD).1 :=
  ok_new hW (hW.good ho).good
    (fun q hq e => hW.inv q hq p (List.mem_of_getElem? ho) e)
    (.inr (hW.na p (List.mem_of_getElem? ho))) args naD

theorem copyProfile_eq {W : World} {o : Nat} {p : Prof} (ho : W.objs[o]? = some p) :
    W.copyProfile o = W.newProfile p.inv [.profile o] := by
  simp [World.copyProfile, ho]

theorem ok_copy {W : World} (hW : WOk W) (o : Nat) : WOk (W.copyProfile o).1 := by
  cases ho : W.objs[o]? with
  | none => simpa [World.copyProfile, ho] using hW
  | some p => rw [copyProfile_eq ho]; exact ok_new_inv hW ho _ _

/-- What `copy` makes: a new object, everything else as before. -/
theorem copy_frame {W : World} (hW : WOk W) {o : Nat} {p : Prof} (ho : W.objs[o]? = some p) :
    (W.copyProfile o).2 = W.objs.length ∧
    (W.copyProfile o).1.objs = W.objs ++ [⟨p.inv, tableOf p.inv W.sets.length⟩] ∧
    (W.copyProfile o).1.mps = W.mps ∧
    (∀ k, k < W.objs.length → ∀ a, (W.copyProfile o).1.get k a = W.get k a) := by
  have hg := (hW.good ho).good
  rw [copyProfile_eq ho]
  refine ⟨rfl, objs_new W hg _ _, ?_, fun k hk a => get_new_old hW hg _ _ hk a⟩
  rw [newProfile_eq W hg]

/-! ## Multi-profiles -/

theorem members_mem {W : World} {j o : Nat} (h : o ∈ W.members j) :
    ∃ m ∈ W.mps, ∃ k, (k, o) ∈ m ∧ W.mps[j]? = some m := by
  unfold World.members at h
  obtain ⟨⟨k, o'⟩, hq, e⟩ := List.mem_map.1 h
  simp only at e
  subst e
  rw [List.getD_eq_getElem?_getD] at hq
  cases hm : W.mps[j]? with
  | none => rw [hm] at hq; cases hq
  | some m =>
    rw [hm] at hq
    exact ⟨m, List.mem_of_getElem? hm, k, hq, rfl⟩

theorem WOk.member {W : World} (hW : WOk W) {j o : Nat} (h : o ∈ W.members j) :
    ∃ p, W.objs[o]? = some p ∧ o ≠ p.inv.na ∧ W.lookup j p.inv.alias = some o := by
  obtain ⟨m, hm, k, hq, hj⟩ := members_mem h
  obtain ⟨h1, _, h3⟩ := hW.mp m hm
  obtain ⟨_, p, hp, e, hne⟩ := h3 _ hq
  refine ⟨p, hp, hne, ?_⟩
  simp only at e
  subst e
  have := find_of_mem (p := ⟨p.inv, m⟩) h1 hq
  simpa [World.lookup, List.getD_eq_getElem?_getD, hj, Prof.find] using this

theorem lookup_mem {W : World} {j o : Nat} {k : String} (h : W.lookup j k = some o) :
    (k, o) ∈ W.mps.getD j [] :=
  mem_of_find (p := ⟨⟨0, "", [], 0⟩, W.mps.getD j []⟩) h

theorem hasProfile_iff {W : World} (hW : WOk W) {j : Nat} {q : Prof} (hq : q ∈ W.objs) :
    W.hasProfile j q.inv = true ↔ ∃ o ∈ W.members j, ∃ p, W.objs[o]? = some p ∧ p.inv = q.inv := by
  unfold World.hasProfile
  rw [List.any_eq_true]
  constructor
  · rintro ⟨o, ho, h⟩
    cases hp : W.objs[o]? with
    | none => rw [hp] at h; cases h
    | some p =>
      rw [hp] at h
      simp only [beq_iff_eq] at h
      exact ⟨o, ho, p, hp, hW.inv p (List.mem_of_getElem? hp) q hq h⟩
  · rintro ⟨o, ho, p, hp, e⟩
    exact ⟨o, ho, by simp [hp, e]⟩

/-- The three cases of `new_profile`. -/
theorem mpNew_cases {W : World} (hW : WOk W) (j : Nat) {o : Nat} {p : Prof}
    (ho : W.objs[o]? = some p) :
    (∃ k ∈ W.members j, (∃ p', W.objs[k]? = some p' ∧ p'.inv = p.inv) ∧
      W.mpNew j o = ((W.copyProfile o).1.updateProfile k [.profile W.objs.length], W.objs.length)) ∨
    (W.hasProfile j p.inv = false ∧ p.inv.alias ∉ Inv.ownFields ∧
      (∀ q ∈ W.mps.getD j [], q.1 ≠ p.inv.alias) ∧
      W.mpNew j o = ({ (W.copyProfile o).1 with
        mps := W.mps.set j (W.mps.getD j [] ++ [(p.inv.alias, W.objs.length)]) }, W.objs.length)) ∨
    (W.hasProfile j p.inv = false ∧
      (p.inv.alias ∈ Inv.ownFields ∨ ∃ q ∈ W.mps.getD j [], q.1 = p.inv.alias) ∧
      W.mpNew j o = ((W.copyProfile o).1, W.objs.length)) := by
  obtain ⟨c2, cobj, cmps, -⟩ := copy_frame hW ho
  have cok := ok_copy hW o
  have hpm : p ∈ W.objs := List.mem_of_getElem? ho
  have hpm' : p ∈ (W.copyProfile o).1.objs := by rw [cobj]; exact List.mem_append_left _ hpm
  have hmem : ∀ j, (W.copyProfile o).1.members j = W.members j := by
    intro j; simp [World.members, cmps]
  have hhas : (W.copyProfile o).1.hasProfile j p.inv = W.hasProfile j p.inv := by
    rw [Bool.eq_iff_iff, hasProfile_iff cok hpm', hasProfile_iff hW hpm, hmem]
    constructor
    · rintro ⟨k, hk, q, hq, e⟩
      obtain ⟨q', hq', -, -⟩ := hW.member hk
      rw [cobj, getElem?_append_some hq'] at hq
      cases hq
      exact ⟨k, hk, q, hq', e⟩
    · rintro ⟨k, hk, q, hq, e⟩
      exact ⟨k, hk, q, by rw [cobj]; exact getElem?_append_some hq, e⟩
  unfold World.mpNew
  simp only [ho, hhas, c2]
  by_cases hh : W.hasProfile j p.inv = true
  · left
    obtain ⟨k, hk, q, hq, e⟩ := (hasProfile_iff hW hpm).1 hh
    obtain ⟨q', hq', -, hl⟩ := hW.member hk
    rw [hq] at hq'; cases hq'
    refine ⟨k, hk, ⟨q, hq, e⟩, ?_⟩
    have hl' : (W.copyProfile o).1.lookup j p.inv.alias = some k := by
      simp only [World.lookup, cmps] at hl ⊢
      rw [← e]; exact hl
    simp only [hh, if_true, World.mpGet, hhas, hl']
  · right
    have hh' : W.hasProfile j p.inv = false := by simpa using hh
    simp only [hh', Bool.false_eq_true, if_false, World.mpAdd, cmps]
    by_cases hc : (Inv.ownFields.contains p.inv.alias ||
        (W.mps.getD j []).any fun q => q.1 == p.inv.alias) = true
    · right
      refine ⟨trivial, ?_, by rw [if_pos hc]⟩
      rw [Bool.or_eq_true] at hc
      rcases hc with hc | hc
      · exact .inl (List.contains_iff_mem.1 hc)
      · obtain ⟨q, hq, e⟩ := List.any_eq_true.1 hc
        exact .inr ⟨q, hq, by simpa using e⟩
    · left
      refine ⟨trivial, ?_, ?_, by rw [if_neg hc]⟩
      · intro h
        exact hc (by rw [List.contains_iff_mem.2 h]; rfl)
      · intro q hq e
        refine hc ?_
        rw [Bool.or_eq_true]
        exact .inr (List.any_eq_true.2 ⟨q, hq, by simpa using e⟩)

theorem getD_set {α : Type} (l : List (List α)) (j j' : Nat) (x : List α) (hj : j < l.length) :
    (l.set j x).getD j' [] = if j' = j then x else l.getD j' [] := by
  simp only [List.getD_eq_getElem?_getD, List.getElem?_set]
  by_cases h : j' = j
  · subst h; simp [hj]
  · rw [if_neg (Ne.symm h), if_neg h]

theorem ok_mpNew {W : World} (hW : WOk W) (j : Nat) {o : Nat} {p : Prof}
    (ho : W.objs[o]? = some p) : WOk (W.mpNew j o).1 := by
  have cok := ok_copy hW o
  obtain ⟨c2, cobj, cmps, -⟩ := copy_frame hW ho
  rcases mpNew_cases hW j ho with ⟨k, _, _, e⟩ | ⟨hh, hal, hfree, e⟩ | ⟨_, _, e⟩
  · rw [e]; exact (shape_update _ _ _).ok cok
  · rw [e]
    by_cases hj : j < W.mps.length
    · have hmem : ∀ j', World.members { (W.copyProfile o).1 with
          mps := W.mps.set j (W.mps.getD j [] ++ [(p.inv.alias, W.objs.length)]) } j' =
          if j' = j then W.members j ++ [W.objs.length] else W.members j' := by
        intro j'
        simp only [World.members]
        rw [getD_set _ _ _ _ hj]
        by_cases h : j' = j
        · subst h; simp
        · simp [h]
      have hnew : ∀ j', W.objs.length ∉ W.members j' := by
        intro j' h
        obtain ⟨q, hq, -⟩ := hW.member h
        exact Nat.lt_irrefl _ (lt_of_getElem? hq)
      refine ⟨cok.prof, cok.apart, cok.inv, cok.na, ?_, ?_⟩
      · intro m hm
        simp only at hm
        rcases List.mem_or_eq_of_mem_set hm with hm | rfl
        · exact cok.mp m (by rw [cmps]; exact hm)
        · have old : ((W.mps.getD j []).map (·.1)).Nodup ∧ ((W.mps.getD j []).map (·.2)).Nodup ∧
              ∀ q ∈ W.mps.getD j [], q.1 ∉ Inv.ownFields ∧ ∃ p', (W.copyProfile o).1.objs[q.2]? = some p' ∧
                p'.inv.alias = q.1 ∧ q.2 ≠ p'.inv.na := by
            have : W.mps.getD j [] ∈ (W.copyProfile o).1.mps := by
              rw [cmps, List.getD_eq_getElem?_getD, List.getElem?_eq_getElem hj]
              exact List.getElem_mem hj
            exact cok.mp _ this
          obtain ⟨h1, h2, h3⟩ := old
          refine ⟨?_, ?_, ?_⟩
          · rw [List.map_append, List.nodup_append]
            refine ⟨h1, by simp, ?_⟩
            intro x hx y hy
            simp only [List.map_cons, List.map_nil, List.mem_singleton] at hy
            subst hy
            obtain ⟨q, hq, rfl⟩ := List.mem_map.1 hx
            exact hfree q hq
          · rw [List.map_append, List.nodup_append]
            refine ⟨h2, by simp, ?_⟩
            intro x hx y hy
            simp only [List.map_cons, List.map_nil, List.mem_singleton] at hy
            subst hy
            rintro rfl
            exact hnew j hx
          · intro q hq
            rcases List.mem_append.1 hq with hq | hq
            · exact h3 q hq
            · simp only [List.mem_singleton] at hq
              subst hq
              refine ⟨hal, ⟨p.inv, tableOf p.inv W.sets.length⟩, by simp [cobj], rfl, ?_⟩
              simp only
              obtain ⟨q, hq, _⟩ := hW.na p (List.mem_of_getElem? ho)
              exact fun e => Nat.lt_irrefl _ (e ▸ lt_of_getElem? hq)
      · intro i i' hne k hk hk'
        rw [hmem] at hk hk'
        split at hk <;> split at hk'
        · omega
        · next h1 h2 =>
          subst h1
          rcases List.mem_append.1 hk with hk | hk
          · exact hW.held _ _ hne k hk hk'
          · simp only [List.mem_singleton] at hk
            subst hk
            exact hnew _ hk'
        · next h1 h2 =>
          subst h2
          rcases List.mem_append.1 hk' with hk' | hk'
          · exact hW.held _ _ hne k hk hk'
          · simp only [List.mem_singleton] at hk'
            subst hk'
            exact hnew _ hk
        · exact hW.held _ _ hne k hk hk'
    · have : W.mps.set j (W.mps.getD j [] ++ [(p.inv.alias, W.objs.length)]) = W.mps :=
        List.set_eq_of_length_le (by omega)
      rw [this, ← cmps]
      exact cok
  · rw [e]; exact cok

theorem ok_newMulti {W : World} (hW : WOk W) : WOk W.newMulti.1 := by
  have hmem : ∀ j, W.newMulti.1.members j = W.members j := by
    intro j
    simp only [World.members, World.newMulti, List.getD_eq_getElem?_getD, List.getElem?_append]
    split
    · rfl
    · next h =>
      rw [List.getElem?_eq_none (l := W.mps) (by omega)]
      cases j - W.mps.length <;> simp
  refine ⟨hW.prof, hW.apart, hW.inv, hW.na, ?_, ?_⟩
  · intro m hm
    simp only [World.newMulti, List.mem_append, List.mem_singleton] at hm
    rcases hm with hm | rfl
    · exact hW.mp m hm
    · simp
  · intro j j' hne o ho
    rw [hmem] at ho ⊢
    exact hW.held j j' hne o ho

theorem objs_mpNew {W : World} (hW : WOk W) (j : Nat) {o : Nat} {p : Prof}
    (ho : W.objs[o]? = some p) : ∃ q, (W.mpNew j o).1.objs = W.objs ++ [q] ∧ q.inv = p.inv := by
  obtain ⟨c2, cobj, cmps, -⟩ := copy_frame hW ho
  refine ⟨⟨p.inv, tableOf p.inv W.sets.length⟩, ?_, rfl⟩
  rw [← cobj]
  rcases mpNew_cases hW j ho with ⟨k, _, _, e⟩ | ⟨_, _, _, e⟩ | ⟨_, _, e⟩
  · rw [e]; exact (shape_update _ _ _).objs
  · rw [e]
  · rw [e]

theorem copyMembers_ok (k : Nat) : ∀ (os : List Nat) (W : World), WOk W →
    (∀ o ∈ os, o < W.objs.length) → WOk (copyMembers k os W)
  | [], W, hW, _ => hW
  | o :: os, W, hW, ho => by
    have h1 : ∃ p, W.objs[o]? = some p :=
      ⟨_, List.getElem?_eq_getElem (ho o (by simp))⟩
    obtain ⟨p, hp⟩ := h1
    obtain ⟨c2, cobj, cmps, -⟩ := copy_frame hW hp
    have cok := ok_copy hW o
    have hc : (W.copyProfile o).1.objs[(W.copyProfile o).2]? =
        some ⟨p.inv, tableOf p.inv W.sets.length⟩ := by rw [c2, cobj]; simp
    obtain ⟨q, hq, _⟩ := objs_mpNew cok k hc
    rw [copyMembers]
    refine copyMembers_ok k os _ (ok_mpNew cok k hc) ?_
    intro o' ho'
    have := ho o' (List.mem_cons_of_mem _ ho')
    rw [hq, cobj]
    simp
    omega

theorem ok_mpCopy {W : World} (hW : WOk W) (j : Nat) : WOk (W.mpCopy j).1 := by
  unfold World.mpCopy
  refine copyMembers_ok _ _ _ (ok_newMulti hW) ?_
  intro o ho
  obtain ⟨p, hp, -⟩ := hW.member ho
  exact lt_of_getElem? hp

theorem ok_lt {W : World} (hW : WOk W) {o : Nat} {p : Prof} (ho : W.objs[o]? = some p) :
    ∀ a ∈ p.inv.aspects, ∀ r, p.find a.alias = some r → r < W.sets.length :=
  fun _ _ _ hr => (hW.good ho).lt _ (mem_of_find hr)

theorem addToProfiles_shape (fs : List Nat) : ∀ (os : List Nat) (W : World), WOk W →
    Shape W (addToProfiles fs os W)
  | [], W, _ => Shape.refl W
  | o :: os, W, hW => by
    simp only [addToProfiles]
    cases ho : W.objs[o]? with
    | none => exact addToProfiles_shape fs os W hW
    | some p =>
      simp only
      rw [addToAspects_eq _ _ _ _ (ok_lt hW ho)]
      have h1 := shape_modSets addVals p fs p.inv.aspects W
      exact h1.trans (addToProfiles_shape fs os _ (h1.ok hW))

theorem shape_addFeatures {W : World} (hW : WOk W) (j : Nat) (args : List Arg) :
    Shape W (W.addFeatures j args) := addToProfiles_shape _ _ W hW

/-- The worlds that calls of the interface lead to.  New inventories are new objects with good
aspects; a profile is made for the inventory of a profile that is there (its `not_applicable`
profile is); results of calls can be used in later calls.  The members of sets are edited by hand only
if `ed` is true. -/
inductive Reach (ed : Bool) : World → Prop
  | start : Reach ed ⟨[], [], []⟩
  | newInventory {W : World} (id : Nat) (alias : String) (aspects : List PAspect) :
      Reach ed W → (∀ p ∈ W.objs, p.inv.id ≠ id) → InvGood ⟨id, alias, aspects, W.objs.length⟩ →
      Reach ed (W.newInventory id alias aspects).1
  | newSet {W : World} (args : List Arg) : Reach ed W → Reach ed (W.newSet args).1
  | setAdd {W : World} (r : Nat) (args : List Arg) : ed = true → Reach ed W → Reach ed (W.setAdd r args)
  | setRemove {W : World} (r : Nat) (args : List Arg) : ed = true → Reach ed W → Reach ed (W.setRemove r args)
  | setReplace {W : World} (r : Nat) (old new : List Arg) : ed = true → Reach ed W → Reach ed (W.setReplace r old new)
  | setUpdate {W : World} (r : Nat) (args : List Arg) : ed = true → Reach ed W → Reach ed (W.setUpdate r args)
  | newProfile {W : World} (o : Nat) (p : Prof) (args : List Arg) (naDefault : Bool) : Reach ed W →
      W.objs[o]? = some p → Reach ed (W.newProfile p.inv args naDefault).1
  | copy {W : World} (o : Nat) : Reach ed W → Reach ed (W.copyProfile o).1
  | update {W : World} (o : Nat) (args : List Arg) : Reach ed W → Reach ed (W.updateProfile o args)
  | newMulti {W : World} : Reach ed W → Reach ed W.newMulti.1
  | mpNew {W : World} (j o : Nat) : Reach ed W → o < W.objs.length → Reach ed (W.mpNew j o).1
  | mpCopy {W : World} (j : Nat) : Reach ed W → Reach ed (W.mpCopy j).1
  | addFeatures {W : World} (j : Nat) (args : List Arg) : Reach ed W → Reach ed (W.addFeatures j args)

theorem Reach.ok {ed : Bool} {W : World} (h : Reach ed W) : WOk W := by
  induction h with
  | start =>
    refine ⟨?_, ?_, ?_, ?_, ?_, ?_⟩
    · intro p hp; cases hp
    · intro o o' p p' ho; cases ho
    · intro p hp; cases hp
    · intro p hp; cases hp
    · intro m hm; cases hm
    · intro j j' _ o ho; cases ho
  | newInventory id alias aspects _ hid hg ih =>
    unfold World.newInventory
    exact ok_new ih hg (fun p hp e => absurd e (hid p hp)) (.inl rfl) [] true
  | newSet args _ ih =>
    refine ⟨fun p hp => (ih.prof p hp).mono (by simp [World.newSet]), ih.apart, ih.inv, ih.na,
      ih.mp, ih.held⟩
  | setAdd r args _ _ ih => exact (shape_write _ _ _).ok ih
  | setRemove r args _ _ ih => exact (shape_write _ _ _).ok ih
  | setReplace r old new _ _ ih => exact ((shape_write _ _ _).trans (shape_write _ _ _)).ok ih
  | setUpdate r args _ _ ih => exact ((shape_write _ _ _).trans (shape_write _ _ _)).ok ih
  | newProfile o p args na _ ho ih => exact ok_new_inv ih ho args na
  | copy o _ ih => exact ok_copy ih o
  | update o args _ ih => exact (shape_update _ o args).ok ih
  | newMulti _ ih => exact ok_newMulti ih
  | mpNew j o _ ho ih => exact ok_mpNew ih j (List.getElem?_eq_getElem ho)
  | mpCopy j _ ih => exact ok_mpCopy ih j
  | addFeatures j args _ ih => exact (shape_addFeatures ih j args).ok ih

end Nisaba.Feature
