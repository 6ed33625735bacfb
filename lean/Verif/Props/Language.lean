import Mathlib.Data.List.Forall2
import Verif.Model.Language
import Verif.Props.Feature
/-!
# Languages of phonological symbols (C132)
-/
namespace Nisaba.Props
open Nisaba.Language

namespace LanguageAux
deriving instance DecidableEq for Except

/-- No code is given twice, in whatever case. -/
structure Unique (db : List Entry) : Prop where
  two : ∀ (i j : Nat) (d e : Entry), db[i]? = some d → db[j]? = some e → d.alpha2 ≠ none →
    d.alpha2.map lower = e.alpha2.map lower → i = j
  three : ∀ (i j : Nat) (d e : Entry), db[i]? = some d → db[j]? = some e →
    lower d.alpha3 = lower e.alpha3 → i = j

theorem findIso_some {p : Entry → Bool} : ∀ {db : List Entry} {n k : Nat} {e : Entry},
    findIso p db n = some (k, e) → n ≤ k ∧ db[k - n]? = some e ∧ p e = true
  | [], _, _, _, h => by simp [findIso] at h
  | d :: ds, n, k, e, h => by
    simp only [findIso] at h
    split at h
    · rename_i hp
      simp only [Option.some.injEq, Prod.mk.injEq] at h
      obtain ⟨rfl, rfl⟩ := h
      exact ⟨Nat.le_refl _, by simp, hp⟩
    · obtain ⟨h1, h2, h3⟩ := findIso_some h
      refine ⟨by omega, ?_, h3⟩
      have : k - n = (k - (n + 1)) + 1 := by omega
      rw [this, List.getElem?_cons_succ]
      exact h2

theorem findIso_none {p : Entry → Bool} : ∀ {db : List Entry} {n : Nat},
    findIso p db n = none → ∀ e ∈ db, p e = false
  | [], _, _, e, he => by cases he
  | d :: ds, n, h, e, he => by
    simp only [findIso] at h
    split at h
    · cases h
    · rename_i hp
      rcases List.mem_cons.1 he with rfl | he
      · simpa using hp
      · exact findIso_none h e he

theorem findIso_isSome {p : Entry → Bool} {db : List Entry} {n i : Nat} {e : Entry}
    (hi : db[i]? = some e) (hp : p e = true) : ∃ k d, findIso p db n = some (k, d) := by
  cases h : findIso p db n with
  | none => exact absurd (findIso_none h e (List.mem_of_getElem? hi)) (by simp [hp])
  | some x => exact ⟨x.1, x.2, rfl⟩

/-- The code `code` stands for the entry `e`. -/
def Codes (code : Str) (e : Entry) : Prop :=
  (code.length = 2 ∧ e.alpha2.map lower = some (lower code)) ∨
    (code.length = 3 ∧ lower e.alpha3 = lower code)

/-- All lists of the tree are equidistant with step `s`. -/
def AllEquidistant (s : Rat) (root : Feature.Val) : Prop :=
  ∀ id al ty st items, Feature.Sub (.list id al ty st items) root → ty = .equidistant ∧ st = s

mutual
/-- Decides `AllEquidistant`. -/
def equiB (s : Rat) : Feature.Val → Bool
  | .feat _ => true
  | .list _ _ ty st items => decide (ty = .equidistant) && decide (st = s) && equiBL s items
def equiBL (s : Rat) : List Feature.Val → Bool
  | [] => true
  | v :: vs => equiB s v && equiBL s vs
end

theorem equiBL_mem {s : Rat} {vs : List Feature.Val} (h : equiBL s vs = true) {v : Feature.Val}
    (hv : v ∈ vs) : equiB s v = true := by
  induction vs with
  | nil => cases hv
  | cons w ws ih =>
    simp only [equiBL, Bool.and_eq_true] at h
    rcases List.mem_cons.1 hv with e | hv
    · rw [e]; exact h.1
    · exact ih h.2 hv

theorem equiB_sub {s : Rat} {v w : Feature.Val} (hs : Feature.Sub w v) (h : equiB s v = true) :
    equiB s w = true := by
  induction hs with
  | refl => exact h
  | step hv _ ih =>
    simp only [equiB, Bool.and_eq_true] at h
    exact ih (equiBL_mem h.2 hv)

theorem equidistant_of {s : Rat} {root : Feature.Val} (h : equiB s root = true) :
    AllEquidistant s root := by
  intro id al ty st items hs
  have := equiB_sub hs h
  simp only [equiB, Bool.and_eq_true, decide_eq_true_eq] at this
  exact this.1

end LanguageAux
open LanguageAux

/-- C132, `from_iso`: with a code of two or three letters, in capitals or not, of a language of the
table the result has the code in lower case, the name of that language and its place in the table. -/
theorem C132_from_iso (db : List Entry) (hu : Unique db) (code : Str) (l : LangFeat) :
    fromIso db code = .ok l ↔
      ∃ i e, db[i]? = some e ∧ Codes code e ∧ l = ⟨lower code, e.name, i⟩ := by
  have two : ∀ (i k : Nat) (d e : Entry), db[i]? = some d → db[k]? = some e → Codes code d → Codes code e →
      i = k := by
    intro i k d e hi hk hd he
    rcases hd with ⟨h2, hd⟩ | ⟨h3, hd⟩ <;> rcases he with ⟨h2', he⟩ | ⟨h3', he⟩
    · refine hu.two i k d e hi hk ?_ (hd.trans he.symm)
      intro hn
      simp [hn] at hd
    · omega
    · omega
    · exact hu.three i k d e hi hk (hd.trans he.symm)
  constructor
  · intro h
    simp only [fromIso] at h
    split at h
    · cases h
    · cases h
    · rename_i n e hf
      simp only [Except.ok.injEq] at h
      subst h
      split at hf
      · rename_i hl
        simp only [Except.ok.injEq] at hf
        obtain ⟨_, h2, h3⟩ := findIso_some hf
        exact ⟨n, e, by simpa using h2, .inl ⟨hl, by simpa using h3⟩, rfl⟩
      · split at hf
        · rename_i hl
          simp only [Except.ok.injEq] at hf
          obtain ⟨_, h2, h3⟩ := findIso_some hf
          exact ⟨n, e, by simpa using h2, .inr ⟨hl, by simpa using h3⟩, rfl⟩
        · cases hf
  · rintro ⟨i, e, hi, hc, rfl⟩
    have key : ∃ (k : Nat) (d : Entry), db[k]? = some d ∧ Codes code d ∧
        fromIso db code = .ok ⟨lower code, d.name, k⟩ := by
      rcases hc with ⟨hl, hc⟩ | ⟨hl, hc⟩
      · obtain ⟨k, d, hg⟩ := findIso_isSome (n := 0)
          (p := fun e : Entry => e.alpha2.map lower == some (lower code)) hi (by simpa using hc)
        obtain ⟨_, h2, h3⟩ := findIso_some hg
        refine ⟨k, d, by simpa using h2, .inl ⟨hl, by simpa using h3⟩, ?_⟩
        simp [fromIso, hl, hg]
      · obtain ⟨k, d, hg⟩ := findIso_isSome (n := 0)
          (p := fun e : Entry => lower e.alpha3 == lower code) hi (by simpa using hc)
        obtain ⟨_, h2, h3⟩ := findIso_some hg
        refine ⟨k, d, by simpa using h2, .inr ⟨hl, by simpa using h3⟩, ?_⟩
        simp [fromIso, hl, hg]
    obtain ⟨k, d, hk, hd, hf⟩ := key
    obtain rfl := two i k e d hi hk hc hd
    rw [hi] at hk
    obtain rfl := Option.some.inj hk
    exact hf

namespace LanguageAux
/-- A table of three languages. -/
def small : List Entry :=
  [⟨some a!"en", a!"eng", a!"English"⟩, ⟨none, a!"mul", a!"Multiple languages"⟩,
    ⟨some a!"hi", a!"hin", a!"Hindi"⟩]

theorem small_unique : Unique small := by
  constructor
  · intro i j d e hi hj hn h
    have li := (List.getElem?_eq_some_iff.1 hi).1
    have lj := (List.getElem?_eq_some_iff.1 hj).1
    simp only [small, List.length_cons, List.length_nil] at li lj
    have : ∀ i < 3, ∀ j < 3, (small[i]?.bind (·.alpha2)) ≠ none →
        (small[i]?.bind (·.alpha2)).map lower = (small[j]?.bind (·.alpha2)).map lower → i = j := by
      decide +kernel
    refine this i (by omega) j (by omega) ?_ ?_
    · simpa [hi] using hn
    · simpa [hi, hj] using h
  · intro i j d e hi hj h
    have li := (List.getElem?_eq_some_iff.1 hi).1
    have lj := (List.getElem?_eq_some_iff.1 hj).1
    simp only [small, List.length_cons, List.length_nil] at li lj
    have : ∀ i < 3, ∀ j < 3, small[i]?.map (fun e => lower e.alpha3) =
        small[j]?.map (fun e => lower e.alpha3) → i = j := by
      decide +kernel
    refine this i (by omega) j (by omega) ?_
    simp [hi, hj, h]
end LanguageAux

example : fromIso small a!"Hi" = .ok ⟨a!"hi", a!"Hindi", 2⟩ :=
  (C132_from_iso small small_unique _ _).2 ⟨2, _, rfl, .inl ⟨rfl, by decide +kernel⟩, by decide +kernel⟩

/-- C132, errors of `from_iso`: `ValueError` exactly for a code that has neither two nor three
letters, `AttributeError` exactly for a code of two or three letters that no language has. -/
theorem C132_from_iso_errors (db : List Entry) (code : Str) :
    (fromIso db code = .error .valueError ↔ code.length ≠ 2 ∧ code.length ≠ 3) ∧
    (fromIso db code = .error .attributeError ↔
      (code.length = 2 ∨ code.length = 3) ∧ ∀ e ∈ db, ¬ Codes code e) := by
  by_cases h2 : code.length = 2
  · cases hg : findIso (fun e : Entry => e.alpha2.map lower == some (lower code)) db 0 with
    | none =>
      have hn : ∀ e ∈ db, ¬ Codes code e := by
        rintro e he (⟨_, hc⟩ | ⟨h3, _⟩)
        · have := findIso_none hg e he
          simp [hc] at this
        · omega
      simp [fromIso, h2, hg]
      exact hn
    | some x =>
      obtain ⟨_, hx, hp⟩ := findIso_some hg
      refine ⟨by simp [fromIso, h2, hg], by simp [fromIso, h2, hg], ?_⟩
      rintro ⟨_, h⟩
      exact absurd (.inl ⟨h2, by simpa using hp⟩) (h _ (List.mem_of_getElem? hx))
  · by_cases h3 : code.length = 3
    · cases hg : findIso (fun e : Entry => lower e.alpha3 == lower code) db 0 with
      | none =>
        have hn : ∀ e ∈ db, ¬ Codes code e := by
          rintro e he (⟨h2', _⟩ | ⟨_, hc⟩)
          · omega
          · have := findIso_none hg e he
            simp [hc] at this
        simp [fromIso, h3, hg]
        exact hn
      | some x =>
        obtain ⟨_, hx, hp⟩ := findIso_some hg
        refine ⟨by simp [fromIso, h3, hg], by simp [fromIso, h3, hg], ?_⟩
        rintro ⟨_, h⟩
        exact absurd (.inr ⟨h3, by simpa using hp⟩) (h _ (List.mem_of_getElem? hx))
    · simp [fromIso, h2, h3]

example : fromIso small a!"hind" = .error .valueError ∧ fromIso small a!"xy" = .error .attributeError := by
  decide +kernel

/-- C132: the codes of two and of three letters of one language give the same text and index, the
codes of two languages give different indices, and these are below the number of languages: a table
of at most 8000 languages leaves the indices of `x_uni` and `x_psa` free, and these are not the same. -/
theorem C132_index (db : List Entry) (hu : Unique db) (c d : Str) (l m : LangFeat)
    (hl : fromIso db c = .ok l) (hm : fromIso db d = .ok m) :
    (l.index = m.index ↔ ∃ e ∈ db, Codes c e ∧ Codes d e) ∧
    (l.index = m.index → l.text = m.text) ∧ l.index < db.length ∧
    (db.length ≤ 8000 → l.index ≠ xUni.index ∧ l.index ≠ xPsa.index) ∧ xUni.index ≠ xPsa.index := by
  obtain ⟨i, e, hi, hc, rfl⟩ := (C132_from_iso db hu c l).1 hl
  obtain ⟨j, f, hj, hd, rfl⟩ := (C132_from_iso db hu d m).1 hm
  have hlt : i < db.length := (List.getElem?_eq_some_iff.1 hi).1
  refine ⟨⟨?_, ?_⟩, ?_, hlt, ?_, by decide⟩
  · rintro rfl
    have : e = f := by simpa [hi] using hj
    subst this
    exact ⟨e, List.mem_of_getElem? hi, hc, hd⟩
  · rintro ⟨g, hg, hcg, hdg⟩
    obtain ⟨k, hk⟩ := List.mem_iff_getElem?.1 hg
    have h1 := (C132_from_iso db hu c _).2 ⟨k, g, hk, hcg, rfl⟩
    have h2 := (C132_from_iso db hu d _).2 ⟨k, g, hk, hdg, rfl⟩
    rw [hl] at h1
    rw [hm] at h2
    simp only [Except.ok.injEq, LangFeat.mk.injEq] at h1 h2
    exact h1.2.2.trans h2.2.2.symm
  · rintro rfl
    have : e = f := by simpa [hi] using hj
    rw [this]
  · intro h8
    simp only [xUni, xPsa]
    omega

/-- Two characters are the same or the two forms of one letter. -/
def LanguageAux.SameLetter (x y : Nat) : Prop :=
  x = y ∨ ∃ k < 26, (x = 65 + k ∨ x = 97 + k) ∧ (y = 65 + k ∨ y = 97 + k)

/-- C132: capitals and small letters in a code make no difference, and the alias has no capitals. -/
theorem C132_case (db : List Entry) (c d : Str) (h : List.Forall₂ LanguageAux.SameLetter c d) :
    fromIso db c = fromIso db d ∧ ∀ l, fromIso db c = .ok l → ∀ x ∈ l.alias, ¬ (65 ≤ x ∧ x ≤ 90) := by
  have hl : lower c = lower d ∧ c.length = d.length := by
    induction h with
    | nil => exact ⟨rfl, rfl⟩
    | cons hx _ ih =>
      refine ⟨?_, by simp [ih.2]⟩
      simp only [lower, List.map_cons] at ih ⊢
      rw [ih.1]
      congr 1
      rcases hx with rfl | ⟨k, hk, hx, hy⟩
      · rfl
      · rcases hx with rfl | rfl <;> rcases hy with rfl | rfl <;> repeat' split
        all_goals omega
  refine ⟨by simp only [fromIso, hl.1, hl.2], ?_⟩
  intro l e x hx
  have ha : l.alias = lower c := by
    unfold fromIso at e
    dsimp only at e
    split at e
    · cases e
    · cases e
    · simp only [Except.ok.injEq] at e
      rw [← e]
  rw [ha, lower, List.mem_map] at hx
  obtain ⟨y, _, rfl⟩ := hx
  split <;> omega

example : fromIso small a!"HiN" = .ok ⟨a!"hin", a!"Hindi", 2⟩ ∧ fromIso small a!"HiN" = fromIso small a!"hin" :=
  ⟨by decide +kernel, (C132_case small a!"HiN" a!"hin"
    (.cons (.inr ⟨7, by decide, by decide, by decide⟩) (.cons (.inl rfl)
      (.cons (.inr ⟨13, by decide, by decide, by decide⟩) .nil)))).1⟩

example : fromIso small a!"hi" = .ok ⟨a!"hi", a!"Hindi", 2⟩ ∧
    fromIso small a!"hin" = .ok ⟨a!"hin", a!"Hindi", 2⟩ ∧
    fromIso small a!"mul" = .ok ⟨a!"mul", a!"Multiple languages", 1⟩ := by decide +kernel

/-- C132, distances: in an aspect all of whose lists are equidistant with the same step, any two
different features are that step apart, however deep they are nested. -/
theorem C132_equidistant {root : Feature.Val} {anyId naId : Nat} (h : WellNamed root anyId naId) {s : Rat}
    (he : AllEquidistant s root) {a b : Nat} (ha : a ∈ Feature.leafIds root)
    (hb : b ∈ Feature.leafIds root) :
    (Feature.Aspect.populate root anyId naId).distance a b = some (if a = b then 0 else s) := by
  obtain ⟨f, hf, rfl⟩ := List.mem_map.1 ha
  obtain ⟨g, hg, rfl⟩ := List.mem_map.1 hb
  by_cases e : f.id = g.id
  · rw [if_pos e, ← e]
    exact FeatureAux.distance_self h ha
  · have hne : f ≠ g := fun c => e (by rw [c])
    obtain ⟨id, al, ty, st, items, hs, i, j, x, y, hij, hi, hj, hx, hy⟩ :=
      Feature.exists_split root hf hg hne
    obtain ⟨rfl, rfl⟩ := he _ _ _ _ _ hs
    rw [if_neg e, C42_value_partial h hs hij hi hj (List.mem_map_of_mem hx) (List.mem_map_of_mem hy)]
    rfl

/-- C132: two different languages of the repository are 1 apart and a language is 0 from itself. -/
theorem C132_languages (a b : Nat) (ha : a ∈ Feature.leafIds Feature.Data.language)
    (hb : b ∈ Feature.leafIds Feature.Data.language) :
    (Feature.Aspect.populate Feature.Data.language 1000 1001).distance a b =
      some (if a = b then 0 else 1) := by
  have hw : WellNamed Feature.Data.language 1000 1001 :=
    (C42_repository _ (by simp [Feature.Data.aspects])).1
  exact C132_equidistant hw (equidistant_of (by decide +kernel)) ha hb

/-- Hindi (11) and Malayalam (5), which stand in different families, are 1 apart. -/
example : (Feature.Aspect.populate Feature.Data.language 1000 1001).distance 11 5 = some 1 :=
  C132_languages 11 5 (by decide +kernel) (by decide +kernel)

end Nisaba.Props
