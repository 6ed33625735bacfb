import Verif.Lemmas.IsoArcs
/-!
# What certificates prove about the ISO transducers
-/
namespace Nisaba
open Seq WRel

/-- The arc read backwards, with the characters written replaced. -/
def swapArc (f : Nat → Str) (a : Arc) : Arc := ⟨a.src, a.out, a.inp.flatMap f, a.wt, a.dst⟩

theorem run_swap {A : List Arc} (f : Nat → Str) {p q : Nat} {x y : Str} {w : Nat}
    (h : Run A p x y w q) : Run (A.map (swapArc f)) p y (x.flatMap f) w q := by
  induction h with
  | nil q => exact Run.nil q
  | @cons a x y w q ha _ ih =>
    rw [List.flatMap_append]
    exact Run.cons (a := swapArc f a) (List.mem_map.2 ⟨a, ha, rfl⟩) ih

theorem swap_run {A : List Arc} {f : Nat → Str} {p q : Nat} {x y : Str} {w : Nat}
    (h : Run (A.map (swapArc f)) p y x w q) : ∃ z, z.flatMap f = x ∧ Run A p z y w q := by
  induction h with
  | nil q => exact ⟨[], rfl, Run.nil q⟩
  | @cons a x y w q ha _ ih =>
    obtain ⟨b, hb, rfl⟩ := List.mem_map.1 ha
    obtain ⟨z, rfl, hz⟩ := ih
    exact ⟨b.inp ++ z, by rw [List.flatMap_append]; rfl, Run.cons hb hz⟩

/-- Checked certificates exist for both directions of the transducer of a script and for the two in
a row.  `f` replaces characters that share their romanization; `ban` are characters NFC texts do not
contain. -/
def IsoOk (d : BrahmicData) (f : Nat → Str) (ban : Nat → Bool) : Prop :=
  ∃ (D T : Cert) (P : Pairs), D.ok (isoArcs d) = true ∧ D.full = true ∧
    T.ok ((isoArcs d).map (swapArc f)) = true ∧ T.full = true ∧ pairsOk D T P ban = true

def noChar : Nat → Bool := fun _ => false

/-- Gurmukhi SHA. -/
def isSha (c : Nat) : Bool := Nat.beq c (nat_lit 0x0A36)

/-- Gurmukhi SHA as SA with nukta. -/
def shaToSa (c : Nat) : Str := bif isSha c then [nat_lit 0x0A38, nat_lit 0x0A3C] else [c]

theorem inp_ne {A : List Arc} {C : Cert} (h : C.ok A = true) : ∀ a ∈ A, a.inp ≠ [] := by
  simp only [Cert.ok, Bool.and_eq_true] at h
  intro a ha
  obtain ⟨c, p, grp, i, hi, _⟩ := groups_complete h.1 ha
  rw [hi]
  simp

theorem iso_reach {d : BrahmicData} {C : Cert} (h : C.ok (isoArcs d) = true) {x y : Str} {w : Nat} :
    brahmicToIso d x y w ↔ Reach (isoArcs d) x y w 0 [] := by
  rw [brahmicToIso_iff_run, run_iff_reach (inp_ne h)]

/-- A best romanization is the only one of its weight, and there is one if the text can be
romanized at all. -/
theorem iso_best {d : BrahmicData} {f : Nat → Str} {ban : Nat → Bool} (h : IsoOk d f ban)
    {x y : Str} {w : Nat} (hx : brahmicToIso d x y w) :
    ∃ y₀ w₀, brahmicToIso d x y₀ w₀ ∧
      ∀ y' w', brahmicToIso d x y' w' → w₀ < w' ∨ (w₀ = w' ∧ y' = y₀) := by
  obtain ⟨D, T, P, h1, h2, _⟩ := h
  cases hb : D.best x with
  | none => exact absurd ((iso_reach h1).1 hx) (best_none h1 h2 hb)
  | some s =>
    obtain ⟨w₀, y₀⟩ := s
    obtain ⟨h3, h4⟩ := best_exact h1 hb
    exact ⟨y₀, w₀, (iso_reach h1).2 h3, fun y' w' h => h4 ((iso_reach h1).1 h)⟩

/-- The best texts for a best romanization are, up to replacements, the text romanized. -/
theorem iso_back {d : BrahmicData} {f : Nat → Str} {ban : Nat → Bool} (h : IsoOk d f ban)
    {x y : Str} (hban : ∀ c ∈ x, ban c = false) (hy : Best (brahmicToIso d) x y) :
    ∃ z w, z.flatMap f = x ∧ brahmicToIso d z y w ∧
      ∀ z' w', brahmicToIso d z' y w' → w < w' ∨ (w = w' ∧ z'.flatMap f = x) := by
  obtain ⟨D, T, P, h1, h2, h3, _, h4⟩ := h
  obtain ⟨w, hw, hmin⟩ := hy
  cases hb : D.best x with
  | none => exact absurd ((iso_reach h1).1 hw) (best_none h1 h2 hb)
  | some s =>
    obtain ⟨w₀, y₀⟩ := s
    obtain ⟨h5, h6⟩ := best_exact h1 hb
    have hle := hmin _ _ ((iso_reach h1).2 h5)
    have hyy : y = y₀ := by
      rcases h6 ((iso_reach h1).1 hw) with h | ⟨_, h⟩
      · omega
      · exact h
    subst hyy
    obtain ⟨w', hT⟩ := pairs_best h4 hban hb
    obtain ⟨h7, h8⟩ := best_exact h3 hT
    obtain ⟨z, hz, hrun⟩ := swap_run ((run_iff_reach (inp_ne h3)).2 h7)
    refine ⟨z, w', hz, brahmicToIso_iff_run.2 hrun, fun z' w'' hz' => ?_⟩
    exact h8 ((run_iff_reach (inp_ne h3)).1 (run_swap f (brahmicToIso_iff_run.1 hz')))

/-- Texts with a given romanization of least weight are equal up to replacements, and there is one
if the romanization can be read at all. -/
theorem iso_to_best {d : BrahmicData} {f : Nat → Str} {ban : Nat → Bool} (h : IsoOk d f ban)
    {x y : Str} {w : Nat} (hx : brahmicToIso d x y w) :
    ∃ z w₀, brahmicToIso d z y w₀ ∧
      ∀ z' w', brahmicToIso d z' y w' → w₀ < w' ∨ (w₀ = w' ∧ z'.flatMap f = z.flatMap f) := by
  obtain ⟨D, T, P, _, _, h3, h4, _⟩ := h
  have key : ∀ {z' w'}, brahmicToIso d z' y w' →
      Reach ((isoArcs d).map (swapArc f)) y (z'.flatMap f) w' 0 [] := fun h =>
    (run_iff_reach (inp_ne h3)).1 (run_swap f (brahmicToIso_iff_run.1 h))
  cases hb : T.best y with
  | none => exact absurd (key hx) (best_none h3 h4 hb)
  | some s =>
    obtain ⟨w₀, z₀⟩ := s
    obtain ⟨h5, h6⟩ := best_exact h3 hb
    obtain ⟨z, hz, hrun⟩ := swap_run ((run_iff_reach (inp_ne h3)).2 h5)
    subst hz
    exact ⟨z, w₀, brahmicToIso_iff_run.2 hrun, fun z' w' h => h6 (key h)⟩

/-! ## The characters of romanized texts -/

theorem mem_inputChars {rows : List Rule} {r : Rule} (h : r ∈ rows) {c : Nat} (hc : c ∈ r.1) :
    c ∈ inputChars rows := List.mem_flatMap.2 ⟨r, h, hc⟩

theorem isoCons_over {d : BrahmicData} {x y : Str} (h : IsoCons d x y) : Over (sigmaUtf8 d) x := by
  intro c hc
  left
  cases h with
  | core h => simp [scriptChars, mem_inputChars h hc]
  | sub h hs =>
    rcases List.mem_append.1 hc with hc | hc
    · simp [scriptChars, mem_inputChars h hc]
    · simp [scriptChars, mem_inputChars hs hc]

theorem over_append {σ : Nat → Prop} {x y : Str} (hx : Over σ x) (hy : Over σ y) : Over σ (x ++ y) :=
  fun c hc => (List.mem_append.1 hc).elim (hx c) (hy c)

theorem dots_over {d : BrahmicData} {x y : Str} (h : Dots d x y) : Over (sigmaUtf8 d) x := by
  induction h with
  | nil => intro c hc; cases hc
  | cons h _ ih =>
    exact over_append (fun c hc => Or.inl (by simp [scriptChars, mem_inputChars h hc])) ih

/-- A text that can be romanized is over the alphabet of the script. -/
theorem isoUnit_over {d : BrahmicData} {x y : Str} {w : Nat} (h : IsoUnit d x y w) :
    Over (sigmaUtf8 d) x := by
  have row : ∀ {rows : List Rule} {r : Rule}, r ∈ rows →
      (∀ c, c ∈ inputChars rows → c ∈ scriptChars d) → Over (sigmaUtf8 d) r.1 :=
    fun h hs c hc => Or.inl (hs c (mem_inputChars h hc))
  have sign : ∀ c, c ∈ inputChars d.vowelSign → c ∈ scriptChars d := fun c h => by simp [scriptChars, h]
  have vow : ∀ c, c ∈ inputChars d.vowel → c ∈ scriptChars d := fun c h => by simp [scriptChars, h]
  have vir : ∀ c, c ∈ inputChars d.virama → c ∈ scriptChars d := fun c h => by simp [scriptChars, h]
  cases h with
  | sign hc h => exact over_append (isoCons_over hc) (row h sign)
  | inherent hc h => exact isoCons_over hc
  | virama hc h => exact over_append (isoCons_over hc) (row h vir)
  | vowel h => exact row h vow
  | coda h => exact row h fun c h => by simp [scriptChars, h]
  | dead h => exact row h fun c h => by simp [scriptChars, h]
  | length h => exact row h fun c h => by simp [scriptChars, h]
  | standalone h => exact row h fun c h => by simp [scriptChars, h]
  | dash h => exact row h sign
  | viramaMark h => exact row h vir
  | common h =>
    intro c hc
    right
    simp only [Data.commonSymbol, List.mem_cons, List.not_mem_nil, or_false] at h
    rcases h with rfl | rfl <;> simp_all [joiners, ZWNJ, ZWJ, ZWS]
  | dots hh hr hd =>
    refine over_append ?_ (over_append (row hr vow) (dots_over hd))
    cases hh with
    | vowel h => exact row h vow
    | dash h => exact row h sign
    | sign hc h => exact over_append (isoCons_over hc) (row h sign)
    | inherent hc h => exact isoCons_over hc
    | virama hc h => exact over_append (isoCons_over hc) (row h vir)

theorem iso_over {d : BrahmicData} {x y : Str} {w : Nat} (h : brahmicToIso d x y w) :
    Over (sigmaUtf8 d) x := by
  induction h with
  | nil => intro c hc; cases hc
  | cons h _ ih => exact over_append (isoUnit_over (isoUnits_iff.1 h)) ih

end Nisaba
