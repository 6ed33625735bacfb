import Verif.Model.Profile
/-!
# Lemmas on feature sets, profiles and multi-profiles
-/
namespace Nisaba.Feature

/-! ## Sets -/

theorem mem_foldl_insert (fs : List Nat) : ∀ (s : List Nat) (x : Nat),
    x ∈ fs.foldl insertId s ↔ x ∈ s ∨ x ∈ fs := by
  induction fs with
  | nil => intro s x; simp
  | cons f fs ih =>
    intro s x
    rw [List.foldl_cons, ih]
    unfold insertId
    by_cases h : s.contains f = true
    · rw [if_pos h]
      simp only [List.contains_iff_mem] at h
      simp only [List.mem_cons]
      constructor
      · rintro (h1 | h1)
        · exact .inl h1
        · exact .inr (.inr h1)
      · rintro (h1 | rfl | h1)
        · exact .inl h1
        · exact .inl h
        · exact .inr h1
    · rw [if_neg h]
      simp [or_assoc]

theorem mem_toSet {fs : List Nat} {x : Nat} : x ∈ toSet fs ↔ x ∈ fs := by
  simp [toSet, mem_foldl_insert]

theorem nodup_foldl_insert (fs : List Nat) : ∀ (s : List Nat), s.Nodup →
    (fs.foldl insertId s).Nodup := by
  induction fs with
  | nil => intro s h; exact h
  | cons f fs ih =>
    intro s h
    rw [List.foldl_cons]
    refine ih _ ?_
    unfold insertId
    by_cases hf : s.contains f = true
    · rw [if_pos hf]; exact h
    · rw [if_neg hf, List.nodup_append]
      refine ⟨h, by simp, ?_⟩
      intro x hx y hy
      simp only [List.mem_singleton] at hy
      subst hy
      rintro rfl
      exact hf (List.contains_iff_mem.2 hx)

theorem nodup_toSet (fs : List Nat) : (toSet fs).Nodup := nodup_foldl_insert fs [] List.nodup_nil

theorem content_write (W : World) {r : Nat} (hr : r < W.sets.length) (s : List Nat) (r' : Nat) :
    (W.write r s).content r' = if r' = r then s else W.content r' := by
  unfold World.write World.content
  simp only [List.getD_eq_getElem?_getD, List.getElem?_set]
  by_cases h : r' = r
  · subst h; simp [hr]
  · rw [if_neg (Ne.symm h), if_neg h]

theorem content_write_ne (W : World) {r r' : Nat} (h : r' ≠ r) (s : List Nat) :
    (W.write r s).content r' = W.content r' := by
  unfold World.write World.content
  simp only [List.getD_eq_getElem?_getD, List.getElem?_set, if_neg (Ne.symm h)]

@[simp] theorem write_objs (W : World) (r : Nat) (s : List Nat) : (W.write r s).objs = W.objs := rfl
@[simp] theorem write_mps (W : World) (r : Nat) (s : List Nat) : (W.write r s).mps = W.mps := rfl
@[simp] theorem write_length (W : World) (r : Nat) (s : List Nat) :
    (W.write r s).sets.length = W.sets.length := by simp [World.write]

/-- Two worlds with the same profiles and multi-profiles and the same members of the sets in `R`. -/
structure Agree (R : List Nat) (W W' : World) : Prop where
  objs : W'.objs = W.objs
  mps : W'.mps = W.mps
  content : ∀ r ∈ R, W'.content r = W.content r

theorem Agree.refs {R W W'} (h : Agree R W W') (o : Nat) : W'.refs o = W.refs o := by
  simp [World.refs, h.objs]

theorem Agree.members {R W W'} (h : Agree R W W') (j : Nat) : W'.members j = W.members j := by
  simp [World.members, h.mps]

theorem flatMap_congr {α β : Type} {f g : α → List β} : ∀ {l : List α}, (∀ x ∈ l, f x = g x) →
    l.flatMap f = l.flatMap g
  | [], _ => rfl
  | x :: l, h => by
    rw [List.flatMap_cons, List.flatMap_cons, h x (by simp),
      flatMap_congr fun y hy => h y (List.mem_cons_of_mem _ hy)]

mutual
theorem flat_agree {W W' : World} : ∀ (x : Arg), Agree (x.reads W) W W' → x.flat W' = x.flat W
  | .feat _, _ => rfl
  | .set r, h => h.content r (by simp [Arg.reads])
  | .profile o, h => by
    simp only [Arg.flat, h.refs]
    exact flatMap_congr h.content
  | .multi j, h => by
    simp only [Arg.flat, h.members]
    have : (W.members j).flatMap W'.refs = (W.members j).flatMap W.refs :=
      flatMap_congr fun o _ => h.refs o
    rw [this]
    exact flatMap_congr h.content
  | .iter xs, h => flatL_agree xs h
  | .other, _ => rfl
theorem flatL_agree {W W' : World} : ∀ (xs : List Arg), Agree (Arg.readsL W xs) W W' →
    Arg.flatL W' xs = Arg.flatL W xs
  | [], _ => rfl
  | x :: xs, h => by
    simp only [Arg.flatL]
    rw [flat_agree x ⟨h.objs, h.mps, fun r hr => h.content r (by simp [Arg.readsL, hr])⟩,
      flatL_agree xs ⟨h.objs, h.mps, fun r hr => h.content r (by simp [Arg.readsL, hr])⟩]
end

theorem agree_write (W : World) {r : Nat} {R : List Nat} (h : r ∉ R) (s : List Nat) :
    Agree R W (W.write r s) :=
  ⟨rfl, rfl, fun r' hr' => content_write_ne W (by rintro rfl; exact h hr') s⟩

theorem flatL_feats (W : World) (fs : List Nat) : Arg.flatL W (fs.map Arg.feat) = fs := by
  induction fs with
  | nil => rfl
  | cons f fs ih => simp [Arg.flatL, Arg.flat, ih]

theorem content_append_lt (W : World) (S : List (List Nat)) {r : Nat} (hr : r < W.sets.length) :
    World.content { W with sets := W.sets ++ S } r = W.content r := by
  simp [World.content, List.getD_eq_getElem?_getD, List.getElem?_append_left hr]

/-! ## Building profiles -/

/-- The value of an aspect of a new profile. -/
def valOf (naDefault : Bool) (fs : List Nat) (a : PAspect) : List Nat :=
  if (fs.filter (fun f => a.aspect.owned f)).isEmpty then
    [if naDefault then a.naId else a.anyId]
  else fs.filter (fun f => a.aspect.owned f)

theorem buildSets_eq (naD : Bool) (fs : List Nat) : ∀ (as : List PAspect) (S : List (List Nat))
    (acc : List (String × Nat)), (as.map PAspect.alias).Nodup →
    (∀ a ∈ as, a.alias ∉ profileFields) → (∀ a ∈ as, ∀ q ∈ acc, q.1 ≠ a.alias) →
    buildSets naD fs as S acc =
      (S ++ as.map (valOf naD fs),
        acc ++ (as.map PAspect.alias).zip (List.range' S.length as.length))
  | [], S, acc, _, _, _ => by simp [buildSets]
  | a :: as, S, acc, hn, hr, ha => by
    simp only [List.map_cons, List.nodup_cons] at hn
    have h1 : (profileFields.contains a.alias || acc.any (fun p => p.1 == a.alias)) = false := by
      rw [Bool.or_eq_false_iff]
      constructor
      · rw [Bool.eq_false_iff]
        intro h
        exact hr a (by simp) (List.contains_iff_mem.1 h)
      · rw [List.any_eq_false]
        intro q hq
        simpa using ha a (by simp) q hq
    rw [buildSets]
    simp only [h1, Bool.false_eq_true, if_false]
    rw [buildSets_eq naD fs as _ _ hn.2 (fun b hb => hr b (List.mem_cons_of_mem _ hb))]
    · simp [valOf, List.range'_succ]
    · intro b hb q hq
      rcases List.mem_append.1 hq with hq | hq
      · exact ha b (List.mem_cons_of_mem _ hb) q hq
      · simp only [List.mem_singleton] at hq
        subst hq
        intro e
        exact hn.1 (List.mem_map.2 ⟨b, hb, e.symm⟩)

/-- An inventory whose aspects have different aliases, none of them an attribute of profiles, and
no feature in common. -/
structure InvGood (i : FInv) : Prop where
  aliases : (i.aspects.map PAspect.alias).Nodup
  reserved : ∀ a ∈ i.aspects, a.alias ∉ profileFields
  apart : ∀ a ∈ i.aspects, ∀ b ∈ i.aspects, ∀ f, a.aspect.owned f = true → b.aspect.owned f = true →
    a.alias = b.alias
  any : ∀ a ∈ i.aspects, a.aspect.owned a.anyId = true
  na : ∀ a ∈ i.aspects, a.aspect.owned a.naId = true

theorem eq_of_alias {as : List PAspect} (h : (as.map PAspect.alias).Nodup) : ∀ {a b : PAspect},
    a ∈ as → b ∈ as → a.alias = b.alias → a = b := by
  induction as with
  | nil => intro a b ha; cases ha
  | cons c as ih =>
    intro a b ha hb e
    simp only [List.map_cons, List.nodup_cons] at h
    rcases List.mem_cons.1 ha with rfl | ha'
    · rcases List.mem_cons.1 hb with rfl | hb'
      · rfl
      · exact absurd (List.mem_map.2 ⟨b, hb', e.symm⟩) h.1
    · rcases List.mem_cons.1 hb with rfl | hb'
      · exact absurd (List.mem_map.2 ⟨a, ha', e⟩) h.1
      · exact ih h.2 ha' hb' e

/-- The table of value sets of a new profile. -/
def tableOf (i : FInv) (n : Nat) : List (String × Nat) :=
  (i.aspects.map PAspect.alias).zip (List.range' n i.aspects.length)

theorem newProfile_eq (W : World) {i : FInv} (h : InvGood i) (args : List Arg) (naD : Bool) :
    W.newProfile i args naD =
      ({ W with sets := W.sets ++ i.aspects.map (valOf naD (toSet (Arg.flatL W args)))
                objs := W.objs ++ [⟨i, tableOf i W.sets.length⟩] }, W.objs.length) := by
  unfold World.newProfile
  simp only [buildSets_eq naD _ i.aspects W.sets [] h.aliases h.reserved (by simp), List.nil_append]
  rfl

theorem tableOf_keys (i : FInv) (n : Nat) :
    (tableOf i n).map (·.1) = i.aspects.map PAspect.alias := by
  unfold tableOf
  rw [List.map_fst_zip]
  simp

theorem tableOf_refs (i : FInv) (n : Nat) :
    (tableOf i n).map (·.2) = List.range' n i.aspects.length := by
  unfold tableOf
  rw [List.map_snd_zip]
  simp

theorem find_of_mem {p : Prof} (h : (p.sets.map (·.1)).Nodup) {k : String} {r : Nat}
    (hm : (k, r) ∈ p.sets) : p.find k = some r := by
  unfold Prof.find
  generalize p.sets = l at h hm
  induction l with
  | nil => cases hm
  | cons q l ih =>
    simp only [List.map_cons, List.nodup_cons] at h
    rcases List.mem_cons.1 hm with rfl | hm'
    · simp
    · have hne : q.1 ≠ k := fun e => h.1 (e ▸ List.mem_map_of_mem (f := (·.1)) hm')
      rw [List.find?_cons_of_neg (by simpa using hne)]
      exact ih h.2 hm'

theorem mem_of_find {p : Prof} {k : String} {r : Nat} (h : p.find k = some r) : (k, r) ∈ p.sets := by
  unfold Prof.find at h
  cases hf : p.sets.find? (fun q => q.1 == k) with
  | none => rw [hf] at h; cases h
  | some q =>
    rw [hf] at h
    simp only [Option.map_some, Option.some.injEq] at h
    have h1 := List.mem_of_find?_eq_some hf
    have h2 := List.find?_some hf
    simp only [beq_iff_eq] at h2
    rw [← h, ← h2]
    exact h1

/-- A profile object of the world that has a set for every aspect. -/
structure ProfOk (p : Prof) (n : Nat) : Prop where
  good : InvGood p.inv
  keys : p.sets.map (·.1) = p.inv.aspects.map PAspect.alias
  lt : ∀ q ∈ p.sets, q.2 < n
  refs : (p.sets.map (·.2)).Nodup

theorem ProfOk.find {p : Prof} {n : Nat} (h : ProfOk p n) {a : PAspect} (ha : a ∈ p.inv.aspects) :
    ∃ r, p.find a.alias = some r ∧ r < n ∧ r ∈ p.sets.map (·.2) := by
  have hm : a.alias ∈ p.sets.map (·.1) := by rw [h.keys]; exact List.mem_map_of_mem ha
  obtain ⟨⟨k, r⟩, hq, hk⟩ := List.mem_map.1 hm
  simp only at hk
  subst hk
  refine ⟨r, find_of_mem (by rw [h.keys]; exact h.good.aliases) hq, h.lt _ hq,
    List.mem_map.2 ⟨_, hq, rfl⟩⟩

theorem ProfOk.find_inj {p : Prof} {n : Nat} (h : ProfOk p n) {k l : String} {r : Nat}
    (hk : p.find k = some r) (hl : p.find l = some r) : k = l := by
  have h1 := mem_of_find hk
  have h2 := mem_of_find hl
  have key : ∀ {s : List (String × Nat)}, (s.map (·.2)).Nodup → (k, r) ∈ s → (l, r) ∈ s → k = l := by
    intro s
    induction s with
    | nil => intro _ h; cases h
    | cons q s ih =>
      intro hn h1 h2
      simp only [List.map_cons, List.nodup_cons] at hn
      rcases List.mem_cons.1 h1 with e1 | h1'
      · rcases List.mem_cons.1 h2 with e2 | h2'
        · have := e1.trans e2.symm; simp at this; exact this
        · exact absurd (List.mem_map.2 ⟨_, h2', by rw [← e1]⟩) hn.1
      · rcases List.mem_cons.1 h2 with e2 | h2'
        · exact absurd (List.mem_map.2 ⟨_, h1', by rw [← e2]⟩) hn.1
        · exact ih hn.2 h1' h2'
  exact key h.refs h1 h2

/-! ## Changing the sets of a profile -/

/-- A loop over aspects that replaces the members of their sets. -/
def modSets (g : PAspect → List Nat → List Nat → List Nat) (p : Prof) (fs : List Nat) :
    List PAspect → World → World
  | [], W => W
  | a :: as, W =>
    if (fs.filter (fun f => a.aspect.owned f)).isEmpty then modSets g p fs as W
    else match p.find a.alias with
      | some r =>
        modSets g p fs as (W.write r (g a (fs.filter (fun f => a.aspect.owned f)) (W.content r)))
      | none => modSets g p fs as W

theorem updateSets_eq (p : Prof) (fs : List Nat) : ∀ (as : List PAspect) (W : World),
    updateSets p fs as W = modSets (fun _ v _ => v) p fs as W
  | [], W => rfl
  | a :: as, W => by
    simp only [updateSets, modSets]
    split
    · exact updateSets_eq p fs as W
    · cases p.find a.alias with
      | some r => exact updateSets_eq p fs as _
      | none => exact updateSets_eq p fs as W

/-- `Set.replace` of `any` by new values. -/
def addVals (a : PAspect) (v c : List Nat) : List Nat :=
  v.foldl insertId (c.filter (fun f => !(f == a.anyId)))

theorem addToAspects_eq (p : Prof) (fs : List Nat) : ∀ (as : List PAspect) (W : World),
    (∀ a ∈ as, ∀ r, p.find a.alias = some r → r < W.sets.length) →
    addToAspects p fs as W = modSets addVals p fs as W
  | [], W, _ => rfl
  | a :: as, W, h => by
    simp only [addToAspects, modSets]
    split
    · exact addToAspects_eq p fs as W fun b hb => h b (List.mem_cons_of_mem _ hb)
    · cases hf : p.find a.alias with
      | some r =>
        have hr := h a (by simp) r hf
        have e : W.setReplace r [.feat a.anyId]
              ((fs.filter fun f => a.aspect.owned f).map Arg.feat) =
            W.write r (addVals a (fs.filter fun f => a.aspect.owned f) (W.content r)) := by
          unfold World.setReplace World.setAdd
          rw [flatL_feats]
          unfold World.setRemove
          rw [content_write W hr, if_pos rfl]
          simp only [World.write, List.set_set, addVals]
          congr 2
          congr 1
          refine List.filter_congr fun f _ => ?_
          simp only [Arg.flatL, Arg.flat, List.append_nil]
          cases h : f == a.anyId <;> simp_all
        simp only [e]
        exact addToAspects_eq p fs as _ fun b hb s hs => by
          rw [write_length]; exact h b (List.mem_cons_of_mem _ hb) s hs
      | none => exact addToAspects_eq p fs as W fun b hb => h b (List.mem_cons_of_mem _ hb)

theorem modSets_frame (g) (p : Prof) (fs : List Nat) : ∀ (as : List PAspect) (W : World),
    (modSets g p fs as W).objs = W.objs ∧ (modSets g p fs as W).mps = W.mps ∧
    (modSets g p fs as W).sets.length = W.sets.length
  | [], W => ⟨rfl, rfl, rfl⟩
  | a :: as, W => by
    simp only [modSets]
    split
    · exact modSets_frame g p fs as W
    · cases p.find a.alias with
      | some r =>
        obtain ⟨h1, h2, h3⟩ := modSets_frame g p fs as
          (W.write r (g a (fs.filter fun f => a.aspect.owned f) (W.content r)))
        exact ⟨h1, h2, h3.trans (write_length _ _ _)⟩
      | none => exact modSets_frame g p fs as W

theorem modSets_other (g) (p : Prof) (fs : List Nat) (r : Nat) : ∀ (as : List PAspect) (W : World),
    (∀ a ∈ as, p.find a.alias = some r → (fs.filter fun f => a.aspect.owned f).isEmpty = true) →
    (modSets g p fs as W).content r = W.content r
  | [], W, _ => rfl
  | a :: as, W, h => by
    have h' : ∀ b ∈ as, p.find b.alias = some r →
        (fs.filter fun f => b.aspect.owned f).isEmpty = true :=
      fun b hb => h b (List.mem_cons_of_mem _ hb)
    simp only [modSets]
    split
    · exact modSets_other g p fs r as W h'
    · next hne =>
      cases hf : p.find a.alias with
      | some s =>
        simp only
        rw [modSets_other g p fs r as _ h']
        refine content_write_ne W ?_ _
        rintro rfl
        exact hne (h a (by simp) hf)
      | none => exact modSets_other g p fs r as W h'

theorem modSets_set (g) {p : Prof} {n : Nat} (hp : ProfOk p n) (fs : List Nat) {r : Nat}
    {a : PAspect} (hf : p.find a.alias = some r)
    (hne : (fs.filter fun f => a.aspect.owned f).isEmpty = false) :
    ∀ (as : List PAspect) (W : World), (as.map PAspect.alias).Nodup → a ∈ as → r < W.sets.length →
    (modSets g p fs as W).content r = g a (fs.filter fun f => a.aspect.owned f) (W.content r)
  | [], W, _, h, _ => by cases h
  | b :: as, W, hn, ha, hr => by
    simp only [List.map_cons, List.nodup_cons] at hn
    simp only [modSets]
    rcases List.mem_cons.1 ha with rfl | ha'
    · simp only [hne, Bool.false_eq_true, if_false, hf]
      rw [modSets_other, content_write W hr, if_pos rfl]
      intro c hc hfc
      exact absurd (List.mem_map.2 ⟨c, hc, hp.find_inj hfc hf⟩) hn.1
    · have hba : b.alias ≠ a.alias := fun e => hn.1 (e ▸ List.mem_map_of_mem ha')
      split
      · exact modSets_set g hp fs hf hne as W hn.2 ha' hr
      · cases hfb : p.find b.alias with
        | some s =>
          simp only
          rw [modSets_set g hp fs hf hne as _ hn.2 ha' (by rw [write_length]; exact hr)]
          rw [content_write_ne]
          rintro rfl
          exact hba (hp.find_inj hfb hf)
        | none => exact modSets_set g hp fs hf hne as W hn.2 ha' hr

end Nisaba.Feature
