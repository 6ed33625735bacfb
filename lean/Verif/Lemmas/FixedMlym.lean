import Verif.Lemmas.FixedCheck
/-!
# Words of Malayalam keys
-/
namespace Nisaba.Fixed
open Pieces Keys

noncomputable section

theorem mem_groups {i : Nat} {p : Str × Str} : p ∈ groups.getD i [] ↔
    p ∈ pieces.getD i [] ∧ p.1 ≠ mO := by
  simp only [groups, List.getD_eq_getElem?_getD, List.getElem?_map]
  cases pieces[i]? with
  | none => simp
  | some g =>
    have : strEq p.1 mO = false ↔ p.1 ≠ mO := by
      rw [Ne, ← Nisaba.strEq_iff, Bool.not_eq_true]
    simp [this]

theorem getD_map {α β : Type} (f : List α → List β) (hf : f [] = []) (G : List (List α)) (i : Nat) :
    (G.map f).getD i [] = f (G.getD i []) := by
  simp only [List.getD_eq_getElem?_getD, List.getElem?_map]
  cases G[i]? with
  | none => simp [hf]
  | some g => rfl

/-- Pieces other than `mO`, with their groups. -/
def Good : List (Nat × Str × Str) → Prop
  | [] => True
  | [p] => p.2 ∈ groups.getD p.1 []
  | p :: q :: l => p.2 ∈ groups.getD p.1 [] ∧ (p.1, q.1) ∈ follow ∧ Good (q :: l)

theorem Good.head {p : Nat × Str × Str} {l : List (Nat × Str × Str)} (h : Good (p :: l)) :
    p.2 ∈ groups.getD p.1 [] := by
  cases l with
  | nil => exact h
  | cons q l => exact h.1

theorem Good.tail {p : Nat × Str × Str} {l : List (Nat × Str × Str)} (h : Good (p :: l)) :
    Good l := by
  cases l with
  | nil => trivial
  | cons q l => exact h.2.2

theorem good_mem {l : List (Nat × Str × Str)} (h : Good l) {p : Nat × Str × Str} (hp : p ∈ l) :
    p.2 ∈ groups.getD p.1 [] := by
  induction l with
  | nil => cases hp
  | cons q l ih =>
    rcases List.mem_cons.1 hp with rfl | hp
    · exact h.head
    · exact ih h.tail hp

theorem good_of_word {l : List (Nat × Str × Str)} (h : Word l) (hm : ∀ p ∈ l, p.2.1 ≠ mO) :
    Good l := by
  induction l with
  | nil => trivial
  | cons p l ih =>
    cases l with
    | nil => exact mem_groups.2 ⟨h, hm p (by simp)⟩
    | cons q l =>
      exact ⟨mem_groups.2 ⟨h.1, hm p (by simp)⟩, h.2.1,
        ih h.2.2 fun r hr => hm r (List.mem_cons_of_mem _ hr)⟩

theorem chained_of_good {f : Str × Str → Str} {l : List (Nat × Str × Str)} (h : Good l) :
    Chained (Follows follow (groups.map fun g => g.map f)) (l.map fun p => f p.2) := by
  induction l with
  | nil => trivial
  | cons p l ih =>
    cases l with
    | nil => trivial
    | cons q l =>
      refine ⟨⟨(p.1, q.1), h.2.1, ?_, ?_⟩, ih h.2.2⟩
      · rw [getD_map _ rfl]; exact List.mem_map.2 ⟨_, h.1, rfl⟩
      · rw [getD_map _ rfl]; exact List.mem_map.2 ⟨_, h.2.2.head, rfl⟩

theorem groupReads_mem {B J : List Nat} {g : List (Str × Str)} {f : Str → Str}
    (h : groupReads B J ((g.map Prod.fst).map f) (g.map Prod.snd) = true) {p : Str × Str}
    (hp : p ∈ g) : ∀ j ∈ B, readsOk IsoCert.Mlym.T J j (f p.1) p.2 = true := by
  induction g with
  | nil => cases hp
  | cons q g ih =>
    simp only [List.map_cons, groupReads] at h
    cases hb : B.all (fun j => readsOk IsoCert.Mlym.T J j (f q.1) q.2) with
    | false => rw [hb] at h; simp at h
    | true =>
      rw [hb, cond_true] at h
      rcases List.mem_cons.1 hp with rfl | hp
      · exact List.all_eq_true.1 hb
      · exact ih h hp

theorem groupEq_mem {g : List (Str × Str)} {f : Str → Str}
    (h : groupEq ((g.map Prod.snd).map f) (g.map Prod.snd) = true) {p : Str × Str}
    (hp : p ∈ g) : f p.2 = p.2 := by
  induction g with
  | nil => cases hp
  | cons q g ih =>
    simp only [List.map_cons, groupEq] at h
    cases hb : strEq (f q.2) q.2 with
    | false => rw [hb] at h; simp at h
    | true =>
      rw [hb, cond_true] at h
      rcases List.mem_cons.1 hp with rfl | hp
      · exact Nisaba.strEq_iff.1 hb
      · exact ih h hp

theorem groupsEq_mem {G : List (List (Str × Str))} {f : Str → Str}
    (h : groupsEq ((G.map fun g => g.map Prod.snd).map fun g => g.map f)
      (G.map fun g => g.map Prod.snd) = true) {i : Nat} {p : Str × Str} (hp : p ∈ G.getD i []) :
    f p.2 = p.2 := by
  induction G generalizing i with
  | nil => simp at hp
  | cons g G ih =>
    simp only [List.map_cons, groupsEq] at h
    cases hb : groupEq ((g.map Prod.snd).map f) (g.map Prod.snd) with
    | false => rw [hb] at h; simp at h
    | true =>
      rw [hb, cond_true] at h
      cases i with
      | zero => exact groupEq_mem hb hp
      | succ i => exact ih h hp

theorem groupsRead_mem {Bs Js : List (List Nat)} {G : List (List (Str × Str))} {f : Str → Str}
    (h : groupsRead Bs Js ((G.map fun g => g.map Prod.fst).map fun g => g.map f)
      (G.map fun g => g.map Prod.snd) = true) {i : Nat} {p : Str × Str} (hp : p ∈ G.getD i []) :
    ∀ j ∈ Bs.getD i [], readsOk IsoCert.Mlym.T (Js.getD i []) j (f p.1) p.2 = true := by
  induction G generalizing Bs Js i with
  | nil => simp at hp
  | cons g G ih =>
    cases Bs with
    | nil => intro j hj; simp at hj
    | cons B Bs =>
      cases Js with
      | nil => simp [groupsRead] at h
      | cons J Js =>
        simp only [List.map_cons, groupsRead] at h
        cases hb : groupReads B J ((g.map Prod.fst).map f) (g.map Prod.snd) with
        | false => rw [hb] at h; simp at h
        | true =>
          rw [hb, cond_true] at h
          cases i with
          | zero => exact groupReads_mem hb hp
          | succ i => exact ih h hp

attribute [local irreducible] groups rowsBefore rowsOf sts in
theorem reads {i : Nat} {p : Str × Str} (hp : p ∈ groups.getD i []) :
    ∀ j ∈ rowsBefore.getD i [],
      readsOk IsoCert.Mlym.T (rowsOf.getD i []) j (scanAll (sts Data.mlymFixed) p.1) p.2 = true := by
  have h := keys_ok
  rw [groupsK_eq] at h
  simp only [List.map_id_fun, id_eq, List.map_id_fun'] at h
  have h1 := (scanAll_pieces (sts_nonempty fixed_nonempty) h).1
  unfold keyGroups letterGroups at h1
  exact groupsRead_mem h1 hp

theorem split_word {S : List (List Rule)} (hne : ∀ st ∈ S, LhsNonempty st) {f : Str × Str → Str}
    {fin : List (List Str) → Bool}
    (hk : groupsK id (groups.map fun g => g.map f) (piecesOk follow fin S) = true) :
    fin ((groups.map fun g => g.map f).map fun g => g.map (scanAll S)) = true ∧
      ∀ {l : List (Nat × Str × Str)}, Good l →
        scanAll S ((l.map fun p => f p.2).flatten) = (l.map fun p => scanAll S (f p.2)).flatten := by
  rw [groupsK_eq] at hk
  simp only [List.map_id_fun, id_eq, List.map_id_fun'] at hk
  obtain ⟨h1, h2⟩ := scanAll_pieces hne hk
  refine ⟨h1, fun {l} h => ?_⟩
  rw [h2 (chained_of_good h), List.map_map]
  simp only [Function.comp_def]

theorem iso_word {l : List (Nat × Str × Str)} (h : Good l) :
    scanAll (sts Data.mlymFixed) (keys l) =
      (l.map fun p => scanAll (sts Data.mlymFixed) p.2.1).flatten :=
  (split_word (f := Prod.fst) (sts_nonempty fixed_nonempty) keys_ok).2 h

theorem at_word {l : List (Nat × Str × Str)} (h : Good l) {I : List Nat} {y z : Str}
    (hI : ∀ p l', l = p :: l' → ∀ j ∈ I, j ∈ rowsBefore.getD p.1 [])
    (ha : At IsoCert.Mlym.T I y z) :
    ∃ J, At IsoCert.Mlym.T J (y ++ (l.map fun p => scanAll (sts Data.mlymFixed) p.2.1).flatten)
      (z ++ letters l) := by
  induction l generalizing I y z with
  | nil => exact ⟨I, by simpa [letters] using ha⟩
  | cons p l ih =>
    have h1 := ha.reads (J := rowsOf.getD p.1 []) fun j hj => reads h.head j (hI p l rfl j hj)
    obtain ⟨J, hJ⟩ := ih h.tail (I := rowsOf.getD p.1 []) (fun q l' e j hj => by
      subst e
      exact memNat_iff.1 (List.all_eq_true.1 (List.all_eq_true.1 rows_follow _ h.2.1) j hj)) h1
    exact ⟨J, by simpa [letters] using hJ⟩

/-- The certificate reads the ISO text of a word as its letters. -/
theorem best_word {l : List (Nat × Str × Str)} (h : Good l) :
    ∃ w, IsoCert.Mlym.T.best (scanAll (sts Data.mlymFixed) (keys l)) = some (w, letters l) := by
  rw [iso_word h]
  have h0 : At IsoCert.Mlym.T [nat_lit 0] [] [] :=
    ⟨0, [], 0, [], rfl, by simp, by decide +kernel, rfl⟩
  have hb : ∀ p ∈ l, (0 : Nat) ∈ rowsBefore.getD p.1 [] := by
    intro p hp
    have hg : p.2 ∈ groups.getD p.1 [] := good_mem h hp
    have hlt : p.1 < 5 := by
      rcases Nat.lt_or_ge p.1 5 with h | h
      · exact h
      · have : groups.getD p.1 [] = [] := by
          rw [List.getD_eq_getElem?_getD, List.getElem?_eq_none (by simpa [groups, pieces] using h)]
          rfl
        rw [this] at hg; cases hg
    have : ∀ i < 5, (0 : Nat) ∈ rowsBefore.getD i [] := by decide +kernel
    exact this _ hlt
  obtain ⟨J, hJ⟩ := at_word h (I := [nat_lit 0]) (y := []) (z := [])
    (fun p l' e j hj => by rw [List.mem_singleton.1 hj]; exact hb p (by rw [e]; simp)) h0
  simpa using hJ.best

/-- The letters of a word are in NFC. -/
theorem nfc_word {l : List (Nat × Str × Str)} (h : Good l) :
    applyRules Data.mlym.nfc (letters l) = letters l := by
  have hne : ∀ st ∈ stages Data.mlym.nfc, LhsNonempty st := by
    have hc := nfc_clean (d := Data.mlym) (by simp [Data.scripts])
    have h1 := cleanRules_nonempty hc
    obtain ⟨sets, hs⟩ := cleanRules_ok hc
    have : stages Data.mlym.nfc = sets := by simp [stages, hs]
    rw [this]
    exact fun st hst q hq => h1 q (mem_sets_rules hs hst hq)
  have hk := letters_ok
  unfold applyRules
  generalize stages Data.mlym.nfc = S at hne hk ⊢
  unfold letterGroups at hk
  obtain ⟨h1, h2⟩ := split_word (f := Prod.snd) hne hk
  unfold letters
  rw [h2 h]
  exact congrArg List.flatten (List.map_congr_left fun p hp => groupsEq_mem h1 (good_mem h hp))

end

end Nisaba.Fixed
