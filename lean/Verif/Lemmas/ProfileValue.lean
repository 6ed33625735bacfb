import Verif.Lemmas.ProfileWorld
/-!
# Values of profiles after calls
-/
namespace Nisaba.Feature

theorem get_aspect {W : World} (hW : WOk W) {o : Nat} {p : Prof} (ho : W.objs[o]? = some p)
    {a : PAspect} (ha : a ∈ p.inv.aspects) :
    ∃ r, p.find a.alias = some r ∧ r < W.sets.length ∧ r ∈ W.refs o ∧ W.get o a = W.content r := by
  obtain ⟨r, h1, h2, h3⟩ := (hW.good ho).find ha
  refine ⟨r, h1, h2, by simpa [World.refs, ho] using h3, ?_⟩
  simp [World.get, ho, h1]

/-- The values of an object do not change if none of its sets does. -/
theorem get_frame {W W' : World} {o : Nat} (hobj : W'.objs[o]? = W.objs[o]?)
    (h : ∀ r ∈ W.refs o, W'.content r = W.content r) (a : PAspect) : W'.get o a = W.get o a := by
  unfold World.get
  rw [hobj]
  cases hp : W.objs[o]? with
  | none => rfl
  | some p =>
    simp only
    cases hf : p.find a.alias with
    | none => rfl
    | some r =>
      refine h r ?_
      simp only [World.refs, hp]
      exact List.mem_map.2 ⟨_, mem_of_find hf, rfl⟩

theorem refs_apart {W : World} (hW : WOk W) {o o' : Nat} (hne : o ≠ o') {r : Nat}
    (h : r ∈ W.refs o) : r ∉ W.refs o' := by
  unfold World.refs at h ⊢
  cases hp : W.objs[o]? with
  | none => rw [hp] at h; cases h
  | some p =>
    rw [hp] at h
    cases hp' : W.objs[o']? with
    | none => simp
    | some p' => exact hW.apart o o' p p' hp hp' hne r h

/-- Only the sets of the object are written. -/
theorem modSets_refs (g) {W : World} {o : Nat} {p : Prof} (ho : W.objs[o]? = some p)
    (fs : List Nat) (as : List PAspect) {r : Nat} (hr : r ∉ W.refs o) :
    (modSets g p fs as W).content r = W.content r := by
  refine modSets_other g p fs r as W fun a _ hf => ?_
  exact absurd (by simp only [World.refs, ho]; exact List.mem_map.2 ⟨_, mem_of_find hf, rfl⟩) hr

theorem get_modSets (g) {W : World} (hW : WOk W) {o : Nat} {p : Prof} (ho : W.objs[o]? = some p)
    (fs : List Nat) {a : PAspect} (ha : a ∈ p.inv.aspects) :
    (modSets g p fs p.inv.aspects W).get o a =
      if (fs.filter fun f => a.aspect.owned f).isEmpty then W.get o a
      else g a (fs.filter fun f => a.aspect.owned f) (W.get o a) := by
  obtain ⟨r, hf, hr, _, hg⟩ := get_aspect hW ho ha
  have hS := shape_modSets g p fs p.inv.aspects W
  have hg' : (modSets g p fs p.inv.aspects W).get o a =
      (modSets g p fs p.inv.aspects W).content r := by
    simp [World.get, hS.objs, ho, hf]
  rw [hg', hg]
  split
  · next he =>
    refine modSets_other g p fs r _ W fun b hb hfb => ?_
    have := eq_of_alias (hW.good ho).good.aliases hb ha ((hW.good ho).find_inj hfb hf)
    subst this
    exact he
  · next he =>
    exact modSets_set g (hW.good ho) fs hf (by simpa using he) _ W (hW.good ho).good.aliases ha hr

theorem updateProfile_eq {W : World} {o : Nat} {p : Prof} (ho : W.objs[o]? = some p)
    (args : List Arg) : W.updateProfile o args =
      modSets (fun _ v _ => v) p (toSet (Arg.flatL W args)) p.inv.aspects W := by
  simp only [World.updateProfile, ho, updateSets_eq]

theorem get_update {W : World} (hW : WOk W) {o : Nat} {p : Prof} (ho : W.objs[o]? = some p)
    (args : List Arg) {a : PAspect} (ha : a ∈ p.inv.aspects) :
    (W.updateProfile o args).get o a =
      if ((toSet (Arg.flatL W args)).filter fun f => a.aspect.owned f).isEmpty then W.get o a
      else (toSet (Arg.flatL W args)).filter fun f => a.aspect.owned f := by
  rw [updateProfile_eq ho, get_modSets _ hW ho _ ha]

theorem get_update_other {W : World} (hW : WOk W) {o o' : Nat} (hne : o' ≠ o) (args : List Arg)
    (a : PAspect) : (W.updateProfile o args).get o' a = W.get o' a := by
  cases ho : W.objs[o]? with
  | none => simp [World.updateProfile, ho]
  | some p =>
    refine get_frame (by rw [(shape_update W o args).objs]) (fun r hr => ?_) a
    rw [updateProfile_eq ho]
    exact modSets_refs _ ho _ _ (refs_apart hW hne hr)

/-! ## Adding features to a symbol -/

theorem refs_shape {W W' : World} (h : Shape W W') (o : Nat) : W'.refs o = W.refs o := by
  simp [World.refs, h.objs]

theorem addToProfiles_other (fs : List Nat) {k : Nat} : ∀ (os : List Nat) (W : World), WOk W →
    k ∉ os → ∀ r ∈ W.refs k, (addToProfiles fs os W).content r = W.content r
  | [], W, _, _, _, _ => rfl
  | o :: os, W, hW, hk, r, hr => by
    simp only [List.mem_cons, not_or] at hk
    simp only [addToProfiles]
    cases ho : W.objs[o]? with
    | none => exact addToProfiles_other fs os W hW hk.2 r hr
    | some p =>
      simp only
      rw [addToAspects_eq _ _ _ _ (ok_lt hW ho)]
      have h1 := shape_modSets addVals p fs p.inv.aspects W
      rw [addToProfiles_other fs os _ (h1.ok hW) hk.2 r (by rw [refs_shape h1]; exact hr)]
      exact modSets_refs _ ho _ _ (refs_apart hW hk.1 hr)

theorem get_addToProfiles (fs : List Nat) {k : Nat} {p : Prof} {a : PAspect}
    (ha : a ∈ p.inv.aspects) : ∀ (os : List Nat) (W : World), WOk W → os.Nodup → k ∈ os →
    W.objs[k]? = some p →
    (addToProfiles fs os W).get k a =
      if (fs.filter fun f => a.aspect.owned f).isEmpty then W.get k a
      else addVals a (fs.filter fun f => a.aspect.owned f) (W.get k a)
  | [], W, _, _, h, _ => by cases h
  | o :: os, W, hW, hn, hk, hp => by
    simp only [List.nodup_cons] at hn
    by_cases e : k = o
    · subst e
      simp only [addToProfiles, hp]
      rw [addToAspects_eq _ _ _ _ (ok_lt hW hp)]
      have h1 := shape_modSets addVals p fs p.inv.aspects W
      rw [get_frame (W := modSets addVals p fs p.inv.aspects W)]
      · exact get_modSets addVals hW hp fs ha
      · rw [(addToProfiles_shape fs os _ (h1.ok hW)).objs]
      · exact addToProfiles_other fs os _ (h1.ok hW) hn.1
    · have hk' : k ∈ os := by
        rcases List.mem_cons.1 hk with h | h
        · exact absurd h e
        · exact h
      simp only [addToProfiles]
      cases ho : W.objs[o]? with
      | none => exact get_addToProfiles fs ha os W hW hn.2 hk' hp
      | some q =>
        simp only
        rw [addToAspects_eq _ _ _ _ (ok_lt hW ho)]
        have h1 := shape_modSets addVals q fs q.inv.aspects W
        rw [get_addToProfiles fs ha os _ (h1.ok hW) hn.2 hk' (by rw [h1.objs]; exact hp)]
        rw [get_frame (by rw [h1.objs]) fun r hr => modSets_refs _ ho _ _ (refs_apart hW e hr)]

theorem members_nodup {W : World} (hW : WOk W) (j : Nat) : (W.members j).Nodup := by
  unfold World.members
  rw [List.getD_eq_getElem?_getD]
  cases hm : W.mps[j]? with
  | none => simp
  | some m => exact (hW.mp m (List.mem_of_getElem? hm)).2.1

theorem mem_addVals {a : PAspect} {v c : List Nat} {x : Nat} :
    x ∈ addVals a v c ↔ (x ∈ c ∧ x ≠ a.anyId) ∨ x ∈ v := by
  simp [addVals, mem_foldl_insert, List.mem_filter]

/-! ## Clean profiles -/

/-- Every aspect of the profile has a value, and values of that aspect only. -/
def Clean (W : World) (o : Nat) (p : Prof) : Prop :=
  ∀ a ∈ p.inv.aspects, W.get o a ≠ [] ∧ ∀ x ∈ W.get o a, a.aspect.owned x = true

theorem mem_flat_profile {W : World} (hW : WOk W) {o : Nat} {p : Prof} (ho : W.objs[o]? = some p)
    {x : Nat} : x ∈ Arg.flat W (.profile o) ↔ ∃ a ∈ p.inv.aspects, x ∈ W.get o a := by
  simp only [Arg.flat, List.mem_flatMap]
  constructor
  · rintro ⟨r, hr, hx⟩
    simp only [World.refs, ho] at hr
    obtain ⟨q, hq, rfl⟩ := List.mem_map.1 hr
    have hk : q.1 ∈ p.inv.aspects.map PAspect.alias := by
      rw [← (hW.good ho).keys]; exact List.mem_map_of_mem hq
    obtain ⟨a, ha, e⟩ := List.mem_map.1 hk
    refine ⟨a, ha, ?_⟩
    have hf : p.find a.alias = some q.2 :=
      find_of_mem (by rw [(hW.good ho).keys]; exact (hW.good ho).good.aliases)
        (by rw [e]; exact hq)
    simpa [World.get, ho, hf] using hx
  · rintro ⟨a, ha, hx⟩
    obtain ⟨r, _, _, hr, hg⟩ := get_aspect hW ho ha
    exact ⟨r, hr, by rw [← hg]; exact hx⟩

/-- The features of a clean profile that belong to an aspect are its value for the aspect. -/
theorem clean_flat {W : World} (hW : WOk W) {o : Nat} {p : Prof} (ho : W.objs[o]? = some p)
    (hc : Clean W o p) {a : PAspect} (ha : a ∈ p.inv.aspects) {x : Nat} :
    (x ∈ Arg.flatL W [.profile o] ∧ a.aspect.owned x = true) ↔ x ∈ W.get o a := by
  simp only [Arg.flatL, List.append_nil]
  rw [mem_flat_profile hW ho]
  constructor
  · rintro ⟨⟨b, hb, hx⟩, hax⟩
    have := (hW.good ho).good.apart a ha b hb x hax ((hc b hb).2 x hx)
    have := eq_of_alias (hW.good ho).good.aliases ha hb this
    subst this
    exact hx
  · intro hx
    exact ⟨⟨a, ha, hx⟩, (hc a ha).2 x hx⟩

theorem isEmpty_filter {fs : List Nat} {q : Nat → Bool} :
    (fs.filter q).isEmpty = true ↔ ∀ x ∈ fs, q x = false := by
  rw [List.isEmpty_iff, List.filter_eq_nil_iff]
  simp

theorem mem_valOf {naD : Bool} {fs : List Nat} {a : PAspect} {x : Nat} :
    x ∈ valOf naD fs a ↔ (x ∈ fs ∧ a.aspect.owned x = true) ∨
      ((∀ f ∈ fs, a.aspect.owned f = false) ∧ x = if naD then a.naId else a.anyId) := by
  unfold valOf
  split
  · next h =>
    rw [isEmpty_filter] at h
    simp only [List.mem_singleton]
    constructor
    · exact fun e => .inr ⟨h, e⟩
    · rintro (⟨h1, h2⟩ | ⟨_, e⟩)
      · rw [h x h1] at h2; cases h2
      · exact e
  · next h =>
    rw [isEmpty_filter] at h
    simp only [List.mem_filter]
    constructor
    · exact .inl
    · rintro (h1 | ⟨h1, _⟩)
      · exact h1
      · exact absurd h1 h

theorem valOf_ne (naD : Bool) (fs : List Nat) (a : PAspect) : valOf naD fs a ≠ [] := by
  unfold valOf
  split
  · simp
  · next h => intro e; rw [e] at h; exact h rfl

theorem clean_new (W : World) {i : FInv} (h : InvGood i) (args : List Arg) (naD : Bool)
    {p : Prof} (hp : p.inv = i) : Clean (W.newProfile i args naD).1 W.objs.length p := by
  intro a ha
  rw [hp] at ha
  rw [get_new W h args naD ha]
  refine ⟨valOf_ne _ _ _, fun x hx => ?_⟩
  rcases mem_valOf.1 hx with ⟨_, h1⟩ | ⟨_, rfl⟩
  · exact h1
  · split
    · exact h.na a ha
    · exact h.any a ha

/-- All profiles of the world are clean. -/
def AllClean (W : World) : Prop := ∀ (o : Nat) (p : Prof), W.objs[o]? = some p → Clean W o p

theorem allClean_new {W : World} (hW : WOk W) (hc : AllClean W) {i : FInv} (h : InvGood i)
    (args : List Arg) (naD : Bool) : AllClean (W.newProfile i args naD).1 := by
  intro o p ho
  rw [objs_new W h] at ho
  by_cases hlt : o < W.objs.length
  · rw [List.getElem?_append_left hlt] at ho
    intro a ha
    rw [get_new_old hW h args naD hlt]
    exact hc o p ho a ha
  · have e : o = W.objs.length := by
      have := lt_of_getElem? ho
      simp at this; omega
    subst e
    simp at ho
    exact clean_new W h args naD (by rw [← ho])

theorem allClean_copy {W : World} (hW : WOk W) (hc : AllClean W) (o : Nat) :
    AllClean (W.copyProfile o).1 := by
  cases ho : W.objs[o]? with
  | none => simpa [World.copyProfile, ho] using hc
  | some p => rw [copyProfile_eq ho]; exact allClean_new hW hc (hW.good ho).good _ _

theorem allClean_update {W : World} (hW : WOk W) (hc : AllClean W) (o : Nat) (args : List Arg) :
    AllClean (W.updateProfile o args) := by
  intro k p hk a ha
  rw [(shape_update W o args).objs] at hk
  by_cases e : k = o
  · subst e
    rw [get_update hW hk args ha]
    split
    · exact hc k p hk a ha
    · next h =>
      refine ⟨fun e => h (by rw [e]; rfl), fun x hx => (List.mem_filter.1 hx).2⟩
  · rw [get_update_other hW e]
    exact hc k p hk a ha

theorem allClean_mps {W : World} (hc : AllClean W) (m : List (List (String × Nat))) :
    AllClean { W with mps := m } := hc

theorem allClean_mpNew {W : World} (hW : WOk W) (hc : AllClean W) (j : Nat) {o : Nat} {p : Prof}
    (ho : W.objs[o]? = some p) : AllClean (W.mpNew j o).1 := by
  have cc := allClean_copy hW hc o
  rcases mpNew_cases hW j ho with ⟨k, _, _, e⟩ | ⟨_, _, _, e⟩ | ⟨_, _, e⟩
  · rw [e]; exact allClean_update (ok_copy hW o) cc _ _
  · rw [e]; exact allClean_mps cc _
  · rw [e]; exact cc

theorem allClean_copyMembers (k : Nat) : ∀ (os : List Nat) (W : World), WOk W → AllClean W →
    (∀ o ∈ os, o < W.objs.length) → AllClean (copyMembers k os W)
  | [], W, _, hc, _ => hc
  | o :: os, W, hW, hc, ho => by
    have hp : W.objs[o]? = some (W.objs[o]'(ho o (by simp))) := List.getElem?_eq_getElem _
    obtain ⟨c2, cobj, cmps, -⟩ := copy_frame hW hp
    have hcp : (W.copyProfile o).1.objs[(W.copyProfile o).2]? =
        some ⟨(W.objs[o]'(ho o (by simp))).inv,
          tableOf (W.objs[o]'(ho o (by simp))).inv W.sets.length⟩ := by rw [c2, cobj]; simp
    obtain ⟨q, hq, _⟩ := objs_mpNew (ok_copy hW o) k hcp
    rw [copyMembers]
    refine allClean_copyMembers k os _ (ok_mpNew (ok_copy hW o) k hcp)
      (allClean_mpNew (ok_copy hW o) (allClean_copy hW hc o) k hcp) ?_
    intro o' ho'
    have := ho o' (List.mem_cons_of_mem _ ho')
    rw [hq, cobj]
    simp
    omega

theorem allClean_add {W : World} (hW : WOk W) (hc : AllClean W) (j : Nat) (args : List Arg) :
    AllClean (W.addFeatures j args) := by
  intro k p hk a ha
  rw [(shape_addFeatures hW j args).objs] at hk
  unfold World.addFeatures
  by_cases hm : k ∈ W.members j
  · rw [get_addToProfiles _ ha _ W hW (members_nodup hW j) hm hk]
    split
    · exact hc k p hk a ha
    · next h =>
      have hne : ∃ x, x ∈ ((toSet (Arg.flatL W args)).filter fun f => a.aspect.owned f) := by
        cases hl : (toSet (Arg.flatL W args)).filter fun f => a.aspect.owned f with
        | nil => rw [hl] at h; exact absurd rfl h
        | cons x l => exact ⟨x, by simp⟩
      obtain ⟨x, hx⟩ := hne
      refine ⟨fun e => ?_, fun y hy => ?_⟩
      · have : x ∈ addVals a ((toSet (Arg.flatL W args)).filter fun f => a.aspect.owned f)
            (W.get k a) := mem_addVals.2 (.inr hx)
        rw [e] at this; cases this
      · rcases mem_addVals.1 hy with ⟨h1, _⟩ | h1
        · exact (hc k p hk a ha).2 y h1
        · exact (List.mem_filter.1 h1).2
  · rw [get_frame (W := W)]
    · exact hc k p hk a ha
    · rw [(addToProfiles_shape _ _ W hW).objs]
    · exact addToProfiles_other _ _ W hW hm

/-- Without edits by hand all profiles stay clean. -/
theorem Reach.clean {W : World} (h : Reach false W) : AllClean W := by
  induction h with
  | start => intro o p ho; cases ho
  | newInventory id alias aspects hr hid hg ih => exact allClean_new hr.ok ih hg [] true
  | newSet args hr ih =>
    intro o p ho a ha
    have : ∀ (W : World) (S : List (List Nat)), WOk W → W.objs[o]? = some p →
        World.get { W with sets := W.sets ++ S } o a = W.get o a := by
      intro W S hW ho
      refine get_frame (W := W) (W' := { W with sets := W.sets ++ S }) rfl (fun r hr => ?_) a
      refine content_append_lt W S ?_
      simp only [World.refs, ho] at hr
      obtain ⟨q, hq, rfl⟩ := List.mem_map.1 hr
      exact (hW.good ho).lt q hq
    simp only [World.newSet]
    rw [this _ _ hr.ok ho]
    exact ih o p ho a ha
  | setAdd r args he _ ih => cases he
  | setRemove r args he _ ih => cases he
  | setReplace r old new he _ ih => cases he
  | setUpdate r args he _ ih => cases he
  | newProfile o p args na hr ho ih => exact allClean_new hr.ok ih (hr.ok.good ho).good args na
  | copy o hr ih => exact allClean_copy hr.ok ih o
  | update o args hr ih => exact allClean_update hr.ok ih o args
  | newMulti hr ih => exact ih
  | mpNew j o hr ho ih => exact allClean_mpNew hr.ok ih j (List.getElem?_eq_getElem ho)
  | mpCopy j hr ih =>
    unfold World.mpCopy
    refine allClean_copyMembers _ _ _ (ok_newMulti hr.ok) ih ?_
    intro o ho
    obtain ⟨p, hp, -⟩ := hr.ok.member ho
    exact lt_of_getElem? hp
  | addFeatures j args hr ih => exact allClean_add hr.ok ih j args

/-! ## Copies -/

theorem get_copy {W : World} (hW : WOk W) {o : Nat} {p : Prof} (ho : W.objs[o]? = some p)
    (hc : Clean W o p) {a : PAspect} (ha : a ∈ p.inv.aspects) (x : Nat) :
    x ∈ (W.copyProfile o).1.get W.objs.length a ↔ x ∈ W.get o a := by
  rw [copyProfile_eq ho, get_new W (hW.good ho).good _ _ ha, mem_valOf]
  simp only [mem_toSet]
  rw [clean_flat hW ho hc ha]
  constructor
  · rintro (h | ⟨h, _⟩)
    · exact h
    · obtain ⟨y, hy⟩ := List.exists_mem_of_ne_nil _ (hc a ha).1
      have := (clean_flat hW ho hc ha).2 hy
      rw [h y this.1] at this
      exact absurd this.2 (by simp)
  · exact .inl

/-- What a multi-profile says after `new_profile`. -/
theorem mpNew_value {W : World} (hW : WOk W) {j : Nat} (hj : j < W.mps.length) {o : Nat} {p : Prof}
    (ho : W.objs[o]? = some p) (hc : Clean W o p)
    (hal : W.hasProfile j p.inv = true ∨ (p.inv.alias ∉ Inv.ownFields ∧
      ∀ q ∈ W.mps.getD j [], q.1 ≠ p.inv.alias)) :
    ∃ k, k ∈ (W.mpNew j o).1.members j ∧ (W.mpNew j o).1.mpGet j p.inv = some k ∧
      (∃ q, (W.mpNew j o).1.objs[k]? = some q ∧ q.inv = p.inv) ∧
      (k = W.objs.length ↔ W.hasProfile j p.inv = false) ∧
      ∀ a ∈ p.inv.aspects, ∀ x, x ∈ (W.mpNew j o).1.get k a ↔ x ∈ W.get o a := by
  obtain ⟨c2, cobj, cmps, cget⟩ := copy_frame hW ho
  have cok := ok_copy hW o
  have nok := ok_mpNew hW j ho
  have hpm := List.mem_of_getElem? ho
  have hcp : (W.copyProfile o).1.objs[W.objs.length]? =
      some ⟨p.inv, tableOf p.inv W.sets.length⟩ := by rw [cobj]; simp
  have hcc : Clean (W.copyProfile o).1 W.objs.length ⟨p.inv, tableOf p.inv W.sets.length⟩ := by
    rw [copyProfile_eq ho]
    exact clean_new W (hW.good ho).good _ _ rfl
  rcases mpNew_cases hW j ho with ⟨k, hk, ⟨p', hp', hpi⟩, e⟩ | ⟨hh, _, _, e⟩ | ⟨hh, hbad, e⟩
  · have hS := shape_update (W.copyProfile o).1 k [.profile W.objs.length]
    have hk' : (W.copyProfile o).1.objs[k]? = some p' := by
      rw [cobj]; exact getElem?_append_some hp'
    have hhas : W.hasProfile j p.inv = true :=
      (hasProfile_iff hW hpm).2 ⟨k, hk, p', hp', hpi⟩
    have hmem : k ∈ (W.mpNew j o).1.members j := by
      rw [e]; simpa [World.members, hS.mps, cmps] using hk
    have hobj : (W.mpNew j o).1.objs[k]? = some p' := by
      rw [e]; simp only; rw [hS.objs]; exact hk'
    refine ⟨k, hmem, ?_, ⟨p', hobj, hpi⟩, ?_, ?_⟩
    · obtain ⟨q, hq, _, hl⟩ := nok.member hmem
      rw [hobj] at hq; cases hq
      have : (W.mpNew j o).1.hasProfile j p.inv = true := by
        rw [← hpi]
        exact (hasProfile_iff nok (List.mem_of_getElem? hobj)).2 ⟨k, hmem, p', hobj, rfl⟩
      simp only [World.mpGet, this, if_true]
      rw [← hpi]
      exact hl
    · rw [hhas]
      have := lt_of_getElem? hp'
      constructor
      · intro e; omega
      · intro h; cases h
    · intro a ha x
      have ha' : a ∈ p'.inv.aspects := by rw [hpi]; exact ha
      rw [e]
      simp only
      rw [get_update cok hk' _ ha']
      have key : ∀ x, x ∈ ((toSet (Arg.flatL (W.copyProfile o).1 [.profile W.objs.length])).filter
          fun f => a.aspect.owned f) ↔ x ∈ W.get o a := by
        intro x
        rw [List.mem_filter, mem_toSet, clean_flat cok hcp hcc ha, get_copy hW ho hc ha]
      rw [if_neg]
      · exact key x
      · intro hemp
        obtain ⟨y, hy⟩ := List.exists_mem_of_ne_nil _ (hc a ha).1
        have := (key y).2 hy
        rw [List.isEmpty_iff] at hemp
        rw [hemp] at this; cases this
  · have hmem : W.objs.length ∈ (W.mpNew j o).1.members j := by
      rw [e]
      simp only [World.members, getD_set _ _ _ _ hj, if_pos]
      simp
    have hobj : (W.mpNew j o).1.objs[W.objs.length]? =
        some ⟨p.inv, tableOf p.inv W.sets.length⟩ := by rw [e]; exact hcp
    refine ⟨W.objs.length, hmem, ?_, ⟨_, hobj, rfl⟩, ?_, ?_⟩
    · obtain ⟨q, hq, _, hl⟩ := nok.member hmem
      rw [hobj] at hq; cases hq
      have : (W.mpNew j o).1.hasProfile j p.inv = true :=
        (hasProfile_iff nok (List.mem_of_getElem? hobj)).2 ⟨_, hmem, _, hobj, rfl⟩
      simp only [World.mpGet, this, if_true]
      exact hl
    · simp [hh]
    · intro a ha x
      rw [e]
      exact get_copy hW ho hc ha x
  · exfalso
    rcases hal with h | ⟨h1, h2⟩
    · rw [hh] at h; cases h
    · rcases hbad with h | ⟨q, hq, e⟩
      · exact h1 h
      · exact h2 q hq e

/-- `new_profile` of one multi-profile leaves the objects of the others alone. -/
theorem mpNew_other {W : World} (hW : WOk W) (j : Nat) {o : Nat} {p : Prof}
    (ho : W.objs[o]? = some p) {k : Nat} (hk : k < W.objs.length) (hm : k ∉ W.members j)
    (a : PAspect) : (W.mpNew j o).1.get k a = W.get k a := by
  obtain ⟨c2, cobj, cmps, cget⟩ := copy_frame hW ho
  rcases mpNew_cases hW j ho with ⟨k', hk', _, e⟩ | ⟨_, _, _, e⟩ | ⟨_, _, e⟩
  · rw [e]
    simp only
    rw [get_update_other (ok_copy hW o) (by rintro rfl; exact hm hk'), cget k hk]
  · rw [e]; exact cget k hk a
  · rw [e]; exact cget k hk a

theorem mpNew_mps {W : World} (hW : WOk W) (j : Nat) {o : Nat} {p : Prof}
    (ho : W.objs[o]? = some p) {j' : Nat} (h : j' ≠ j) :
    (W.mpNew j o).1.mps.getD j' [] = W.mps.getD j' [] := by
  obtain ⟨c2, cobj, cmps, cget⟩ := copy_frame hW ho
  rcases mpNew_cases hW j ho with ⟨k', hk', _, e⟩ | ⟨_, _, _, e⟩ | ⟨_, _, e⟩
  · rw [e]; simp only; rw [(shape_update _ _ _).mps, cmps]
  · rw [e]
    simp only [List.getD_eq_getElem?_getD, List.getElem?_set, if_neg (Ne.symm h)]
  · rw [e]; simp only; rw [cmps]

theorem mpNew_members {W : World} (hW : WOk W) {j : Nat} (hj : j < W.mps.length) {o : Nat} {p : Prof}
    (ho : W.objs[o]? = some p) :
    (W.mpNew j o).1.mps.length = W.mps.length ∧
    ∀ q, q ∈ (W.mpNew j o).1.mps.getD j [] → q ∈ W.mps.getD j [] ∨ q.1 = p.inv.alias := by
  obtain ⟨c2, cobj, cmps, cget⟩ := copy_frame hW ho
  rcases mpNew_cases hW j ho with ⟨k', hk', _, e⟩ | ⟨_, _, _, e⟩ | ⟨_, _, e⟩
  · rw [e]; simp only; rw [(shape_update _ _ _).mps, cmps]; exact ⟨rfl, fun q h => .inl h⟩
  · rw [e]
    refine ⟨by simp, fun q hq => ?_⟩
    simp only [getD_set _ _ _ _ hj, if_pos] at hq
    rcases List.mem_append.1 hq with h | h
    · exact .inl h
    · simp only [List.mem_singleton] at h
      subst h
      exact .inr rfl
  · rw [e]; simp only; rw [cmps]; exact ⟨rfl, fun q h => .inl h⟩

/-- A profile whose alias is free is added as a copy, and nothing else changes. -/
theorem mpNew_fresh {W : World} (hW : WOk W) (j : Nat) {o : Nat} {p : Prof}
    (ho : W.objs[o]? = some p) (hal : p.inv.alias ∉ Inv.ownFields)
    (hf : ∀ q ∈ W.mps.getD j [], q.1 ≠ p.inv.alias) :
    W.hasProfile j p.inv = false ∧
    W.mpNew j o = ({ (W.copyProfile o).1 with
      mps := W.mps.set j (W.mps.getD j [] ++ [(p.inv.alias, W.objs.length)]) }, W.objs.length) := by
  rcases mpNew_cases hW j ho with ⟨k', hk', ⟨p', hp', e⟩, _⟩ | ⟨h, _, _, e⟩ | ⟨_, h, _⟩
  · exfalso
    obtain ⟨m, hm, key, hq, hj⟩ := members_mem hk'
    obtain ⟨_, _, h3⟩ := hW.mp m hm
    obtain ⟨_, p2, hp2, e2, _⟩ := h3 _ hq
    rw [hp'] at hp2; cases hp2
    refine hf (key, k') ?_ ?_
    · simpa [List.getD_eq_getElem?_getD, hj] using hq
    · rw [← e2, e]
  · exact ⟨h, e⟩
  · exfalso
    rcases h with h | ⟨q, hq, e⟩
    · exact hal h
    · exact hf q hq e

/-- Two lists whose items are related place by place. -/
inductive Zips (R : Nat → Nat → Prop) : List Nat → List Nat → Prop
  | nil : Zips R [] []
  | cons {x y : Nat} {l m : List Nat} : R x y → Zips R l m → Zips R (x :: l) (y :: m)

theorem Zips.left {R : Nat → Nat → Prop} {l m : List Nat} (h : Zips R l m) :
    ∀ x ∈ l, ∃ y ∈ m, R x y := by
  induction h with
  | nil => intro x hx; cases hx
  | cons h1 _ ih =>
    intro x hx
    rcases List.mem_cons.1 hx with rfl | hx
    · exact ⟨_, by simp, h1⟩
    · obtain ⟨y, hy, h⟩ := ih x hx
      exact ⟨y, by simp [hy], h⟩

theorem Zips.right {R : Nat → Nat → Prop} {l m : List Nat} (h : Zips R l m) :
    ∀ y ∈ m, ∃ x ∈ l, R x y := by
  induction h with
  | nil => intro x hx; cases hx
  | cons h1 _ ih =>
    intro x hx
    rcases List.mem_cons.1 hx with rfl | hx
    · exact ⟨_, by simp, h1⟩
    · obtain ⟨y, hy, h⟩ := ih x hx
      exact ⟨y, by simp [hy], h⟩

/-- The loop of `MultiProfile.copy`. -/
theorem copyMembers_value (k : Nat) : ∀ (os : List Nat) (W : World), WOk W → AllClean W →
    k < W.mps.length →
    (∀ o ∈ os, ∃ p, W.objs[o]? = some p ∧ p.inv.alias ∉ Inv.ownFields ∧
      ∀ q ∈ W.mps.getD k [], q.1 ≠ p.inv.alias) →
    os.Pairwise (fun o o' => ∀ p p', W.objs[o]? = some p → W.objs[o']? = some p' →
      p.inv.alias ≠ p'.inv.alias) →
    (∀ (i : Nat) (p : Prof), W.objs[i]? = some p → (copyMembers k os W).objs[i]? = some p) ∧
    (∀ i, i < W.objs.length → ∀ a, (copyMembers k os W).get i a = W.get i a) ∧
    (∀ j, j ≠ k → (copyMembers k os W).mps.getD j [] = W.mps.getD j []) ∧
    (copyMembers k os W).mps.length = W.mps.length ∧
    ∃ new : List Nat, (copyMembers k os W).members k = W.members k ++ new ∧
      (∀ i ∈ new, W.objs.length ≤ i) ∧
      Zips (fun o i => ∃ p q, W.objs[o]? = some p ∧
        (copyMembers k os W).objs[i]? = some q ∧ q.inv = p.inv ∧
        ∀ a ∈ p.inv.aspects, ∀ x, x ∈ (copyMembers k os W).get i a ↔ x ∈ W.get o a) os new
  | [], W, _, _, _, _, _ => by
    refine ⟨fun i p h => h, fun i _ a => rfl, fun _ _ => rfl, rfl, [], ?_, ?_, .nil⟩
    · simp [copyMembers]
    · intro i hi; cases hi
  | o :: os, W, hW, hc, hk, hos, hpw => by
    obtain ⟨p, hp, hal, hfree⟩ := hos o (by simp)
    obtain ⟨c2, cobj, cmps, cget⟩ := copy_frame hW hp
    have cok := ok_copy hW o
    have ccl := allClean_copy hW hc o
    have hcp : (W.copyProfile o).1.objs[W.objs.length]? =
        some ⟨p.inv, tableOf p.inv W.sets.length⟩ := by rw [cobj]; simp
    obtain ⟨d2, dobj, dmps, dget⟩ := copy_frame cok hcp
    obtain ⟨_, hnew⟩ := mpNew_fresh cok k hcp hal (by rw [cmps]; exact hfree)
    have nok := ok_mpNew cok k hcp
    have ncl := allClean_mpNew cok ccl k hcp
    rw [copyMembers]
    simp only [c2]
    generalize hV : ((W.copyProfile o).1.mpNew k W.objs.length).1 = V at *
    rw [hnew] at hV
    have vobj : V.objs = (W.objs ++ [⟨p.inv, tableOf p.inv W.sets.length⟩]) ++
        [⟨p.inv, tableOf p.inv (W.copyProfile o).1.sets.length⟩] := by
      rw [← hV, ← cobj, ← dobj]
    have vmps : V.mps = W.mps.set k (W.mps.getD k [] ++ [(p.inv.alias, W.objs.length + 1)]) := by
      rw [← hV]; simp only [cmps, cobj, List.length_append, List.length_singleton]
    have vget : ∀ i, i < W.objs.length → ∀ a, V.get i a = W.get i a := by
      intro i hi a
      rw [← cget i hi a, ← dget i (by rw [cobj]; simp; omega) a, ← hV]
      rfl
    have vnew : ∀ a ∈ p.inv.aspects, ∀ x, x ∈ V.get (W.objs.length + 1) a ↔ x ∈ W.get o a := by
      intro a ha x
      rw [← get_copy hW hp (hc o p hp) ha x, ← get_copy cok hcp (ccl _ _ hcp) ha x, ← hV, cobj]
      simp only [List.length_append, List.length_singleton]
      rfl
    have hold : ∀ (i : Nat) (q : Prof), W.objs[i]? = some q → V.objs[i]? = some q := by
      intro i q h; rw [vobj]; exact getElem?_append_some (getElem?_append_some h)
    have hkey : V.mps.getD k [] = W.mps.getD k [] ++ [(p.inv.alias, W.objs.length + 1)] := by
      rw [vmps, getD_set _ _ _ _ hk, if_pos rfl]
    simp only [List.pairwise_cons] at hpw
    obtain ⟨i1, i2, i3, i4, new, i5, i6, i7⟩ := copyMembers_value k os V nok ncl
      (by rw [vmps]; simpa using hk)
      (by
        intro o' ho'
        obtain ⟨p', hp', hal', hf'⟩ := hos o' (by simp [ho'])
        refine ⟨p', hold _ _ hp', hal', ?_⟩
        intro q hq
        rw [hkey] at hq
        rcases List.mem_append.1 hq with hq | hq
        · exact hf' q hq
        · simp only [List.mem_singleton] at hq
          subst hq
          exact hpw.1 o' ho' p p' hp hp')
      (by
        refine List.Pairwise.imp_of_mem ?_ hpw.2
        intro a b ha hb h p1 p2 h1 h2
        obtain ⟨q1, hq1, -⟩ := hos a (by simp [ha])
        obtain ⟨q2, hq2, -⟩ := hos b (by simp [hb])
        have e1 := hold _ _ hq1
        have e2 := hold _ _ hq2
        rw [e1] at h1; rw [e2] at h2
        cases h1; cases h2
        exact h _ _ hq1 hq2)
    have hlen : V.objs.length = W.objs.length + 2 := by rw [vobj]; simp
    refine ⟨fun i q h => i1 i q (hold i q h), ?_, ?_, ?_, (W.objs.length + 1) :: new, ?_, ?_, ?_⟩
    · intro i hi a
      rw [i2 i (by omega) a, vget i hi a]
    · intro j hj
      rw [i3 j hj, vmps, getD_set _ _ _ _ hk, if_neg hj]
    · rw [i4, vmps]; simp
    · rw [i5]
      simp only [World.members, hkey]
      simp
    · intro i hi
      rcases List.mem_cons.1 hi with rfl | hi
      · omega
      · have := i6 i hi; omega
    · refine .cons ⟨p, ⟨p.inv, tableOf p.inv (W.copyProfile o).1.sets.length⟩, hp, ?_, rfl, ?_⟩ ?_
      · refine i1 _ _ ?_
        rw [vobj]; simp
      · intro a ha x
        rw [i2 _ (by omega) a]
        exact vnew a ha x
      · have : ∀ (l m : List Nat), (∀ x ∈ l, x ∈ os) →
            Zips (fun o i => ∃ p q, V.objs[o]? = some p ∧
              (copyMembers k os V).objs[i]? = some q ∧ q.inv = p.inv ∧
              ∀ a ∈ p.inv.aspects, ∀ x, x ∈ (copyMembers k os V).get i a ↔ x ∈ V.get o a) l m →
            Zips (fun o i => ∃ p q, W.objs[o]? = some p ∧
              (copyMembers k os V).objs[i]? = some q ∧ q.inv = p.inv ∧
              ∀ a ∈ p.inv.aspects, ∀ x, x ∈ (copyMembers k os V).get i a ↔ x ∈ W.get o a) l m := by
          intro l m hl h
          induction h with
          | nil => exact .nil
          | @cons o1 y1 _ _ h1 h2 ih =>
            refine .cons ?_ (ih fun x hx => hl x (List.mem_cons_of_mem _ hx))
            obtain ⟨p1, q1, e1, e2, e3, e4⟩ := h1
            obtain ⟨p', hp', -⟩ := hos o1 (List.mem_cons_of_mem _ (hl o1 (by simp)))
            rw [hold _ _ hp'] at e1
            cases e1
            refine ⟨_, q1, hp', e2, e3, ?_⟩
            intro a ha x
            rw [e4 a ha x, vget _ (lt_of_getElem? hp') a]
        exact this os new (fun _ h => h) i7

end Nisaba.Feature
