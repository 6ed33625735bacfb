import Verif.Model.Fixed
import Verif.Lemmas.Iso
import Verif.Lemmas.Pieces
/-!
# Lemmas on the fixed rule romanization
-/
namespace Nisaba.Fixed
open Seq WRel Pieces

/-! ## The rules one after another -/

/-- One rewrite per rule. -/
def sts (rules : List Rule) : List (List Rule) := rules.map fun r => [r]

theorem sts_nonempty {rules : List Rule} (h : LhsNonempty rules) : ∀ st ∈ sts rules, LhsNonempty st := by
  intro st hst p hp
  obtain ⟨r, hr, rfl⟩ := List.mem_map.1 hst
  rw [List.mem_singleton.1 hp]
  exact h r hr

theorem sts_prefixDet (rules : List Rule) : ∀ st ∈ sts rules, PrefixDet st := by
  intro st hst p hp q hq _
  obtain ⟨r, _, rfl⟩ := List.mem_map.1 hst
  rw [List.mem_singleton.1 hp, List.mem_singleton.1 hq]

theorem ruleFst_iff {rules : List Rule} (h : LhsNonempty rules) {s y : Str} :
    fixedRuleFst rules s y ↔ Over (fixedSigma rules) s ∧ y = scanAll (sts rules) s := by
  refine rewriteAndCompose_iff (sts_nonempty h) (sts_prefixDet rules) ?_
  intro st hst p hp c hc
  obtain ⟨r, hr, rfl⟩ := List.mem_map.1 hst
  rw [List.mem_singleton.1 hp] at hc
  exact Or.inl (List.mem_flatMap.2 ⟨r, hr, List.mem_append_right _ hc⟩)

theorem iso_iff {rules : List Rule} (h : LhsNonempty rules) {s y : Str} :
    Rel.comp asciiAcceptor (fixedRuleFst rules) s y ↔
      Over asciiInput s ∧ y = scanAll (sts rules) s := by
  constructor
  · rintro ⟨_, ⟨rfl, ho⟩, h2⟩
    exact ⟨ho, ((ruleFst_iff h).1 h2).2⟩
  · rintro ⟨ho, e⟩
    exact ⟨s, ⟨rfl, ho⟩, (ruleFst_iff h).2 ⟨fun c hc => Or.inr (Or.inl (ho c hc)), e⟩⟩

theorem fixed_iff {rules : List Rule} (h : LhsNonempty rules) {d : BrahmicData} {R : Rel}
    {s z : Str} {w : Nat} : fixedFst rules d R s z w ↔
      Over asciiInput s ∧ toScript d R (scanAll (sts rules) s) z w := by
  constructor
  · rintro ⟨y, u, v, ⟨h1, rfl⟩, h2, rfl⟩
    obtain ⟨ho, rfl⟩ := (iso_iff h).1 h1
    exact ⟨ho, by simpa using h2⟩
  · rintro ⟨ho, h2⟩
    exact ⟨_, 0, w, ⟨(iso_iff h).2 ⟨ho, rfl⟩, rfl⟩, h2, by simp⟩

theorem best_iff {rules : List Rule} (h : LhsNonempty rules) {d : BrahmicData} {R : Rel}
    {s z : Str} (ho : Over asciiInput s) : Best (fixedFst rules d R) s z ↔
      Best (toScript d R) (scanAll (sts rules) s) z := by
  have key : ∀ z w, fixedFst rules d R s z w ↔ toScript d R (scanAll (sts rules) s) z w :=
    fun z w => (fixed_iff h).trans ⟨fun h => h.2, fun h => ⟨ho, h⟩⟩
  simp only [Best, key]

/-! ## A character that ends what rules look at -/

/-- `c` is in no left-hand side except as its last character. -/
def EndsAt (c : Nat) (st : List Rule) : Prop := ∀ p ∈ st, c ∉ p.1.dropLast

theorem noCross_end {c : Nat} {st : List Rule} (h : EndsAt c st) (a b : Str) :
    NoCross st (a ++ [c]) b := by
  intro p hp l₁ l₂ e h1 h2 hs _
  refine h p hp ?_
  rw [e, List.dropLast_append_of_ne_nil h2]
  obtain ⟨u, hu⟩ := hs
  have h3 : l₁.getLast h1 = c := by
    have : (u ++ l₁).getLast (by simp [h1]) = (a ++ [c]).getLast (by simp) := by
      congr 1
    rwa [List.getLast_append_of_ne_nil _ h1, List.getLast_append_of_ne_nil _ (by simp)] at this
  exact List.mem_append_left _ (h3 ▸ List.getLast_mem h1)

/-! ## A character with known predecessors -/

/-- Every `m` in the text comes after one of `P`; `b` says that the text comes after one. -/
def preceded (m : Nat) (P : List Nat) : Bool → Str → Bool
  | _, [] => true
  | b, c :: s => (bif Nat.beq c m then b else true) && preceded m P (memNat P c) s

/-- Is the last character one of `P`? -/
def endsP (P : List Nat) : Bool → Str → Bool
  | b, [] => b
  | _, c :: s => endsP P (memNat P c) s

theorem preceded_append (m : Nat) (P : List Nat) (b : Bool) (l s : Str) :
    preceded m P b (l ++ s) = (preceded m P b l && preceded m P (endsP P b l) s) := by
  induction l generalizing b with
  | nil => simp [preceded, endsP]
  | cons c l ih => simp [preceded, endsP, ih, Bool.and_assoc]

theorem preceded_mono {m : Nat} {P : List Nat} {b b' : Bool} {s : Str} (hb : b = true → b' = true)
    (h : preceded m P b s = true) : preceded m P b' s = true := by
  cases s with
  | nil => rfl
  | cons c s =>
    simp only [preceded, Bool.and_eq_true] at h ⊢
    refine ⟨?_, h.2⟩
    cases hc : Nat.beq c m with
    | true => rw [hc] at h; exact hb h.1
    | false => rfl

theorem endsP_mono {P : List Nat} {b b' : Bool} {s : Str} (hb : b = true → b' = true)
    (h : endsP P b s = true) : endsP P b' s = true := by
  cases s with
  | nil => exact hb h
  | cons c s => exact h

/-- What a rule writes has `m` only after one of `P'`, and ends in one of `P'` when what it reads
ends in one of `P`. -/
def keepsPreds (m : Nat) (P P' : List Nat) (r : Rule) : Bool :=
  preceded m P' false r.2 && (bif endsP P false r.1 then endsP P' false r.2 else true)

theorem preceded_scan {m : Nat} {P P' : List Nat} {r : Rule} (hr : r.1 ≠ [])
    (hsub : ∀ c, memNat P c = true → memNat P' c = true) (hk : keepsPreds m P P' r = true)
    {b b' : Bool} (hb : b = true → b' = true) {s : Str} (h : preceded m P b s = true) :
    preceded m P' b' (scan [r] 0 s) = true := by
  have hne : LhsNonempty [r] := fun p hp => by rw [List.mem_singleton.1 hp]; exact hr
  simp only [keepsPreds, Bool.and_eq_true] at hk
  generalize hn : s.length = n
  induction n using Nat.strongRecOn generalizing s b b' with
  | _ n ih =>
    cases s with
    | nil => simp [scan, preceded]
    | cons c s =>
      cases hf : findRule [r] (c :: s) with
      | none =>
        rw [scan_none hf]
        simp only [preceded, Bool.and_eq_true] at h ⊢
        refine ⟨?_, ih s.length (by simp at hn; omega) (hsub c) h.2 rfl⟩
        cases hc : Nat.beq c m with
        | true => rw [hc] at h; exact hb h.1
        | false => rfl
      | some p =>
        rw [scan_some hne hf]
        obtain ⟨hp, t, ht⟩ := findRule_some hf
        rw [List.mem_singleton] at hp
        subst hp
        have hlt : t.length < n := by
          have h1 : (c :: s).length = p.1.length + t.length := by rw [← ht]; simp
          have h2 : p.1.length ≠ 0 := fun e => hr (List.length_eq_zero_iff.1 e)
          omega
        rw [← ht, List.drop_left]
        rw [← ht, preceded_append, Bool.and_eq_true] at h
        rw [preceded_append, Bool.and_eq_true]
        refine ⟨preceded_mono (by simp) hk.1, ih t.length hlt ?_ h.2 rfl⟩
        intro he
        have he' : endsP P false p.1 = true := by
          obtain ⟨x, l, hl⟩ := List.exists_cons_of_ne_nil hr
          rw [hl] at he ⊢
          exact he
        have := hk.2
        rw [he'] at this
        exact endsP_mono (by simp) this

/-- The characters before `m` in a text. -/
def predsOf (m : Nat) : Str → List Nat
  | a :: b :: s => (bif Nat.beq b m then [a] else []) ++ predsOf m (b :: s)
  | _ => []

/-- The rules one after another, from the predecessors `P`; `fin` checks the predecessors at the
end. -/
def predsOk (m : Nat) (fin : List Nat → Bool) : List Nat → List Rule → Bool
  | P, [] => fin P
  | P, r :: rs =>
    let P' := predsOf m r.2 ++ P
    bif r.1.isEmpty then false else keepsPreds m P P' r && predsOk m fin P' rs

theorem predsOk_scanAll {m : Nat} {fin : List Nat → Bool} {P : List Nat} {rules : List Rule}
    (h : predsOk m fin P rules = true) {s : Str} (hs : preceded m P false s = true) :
    ∃ P', fin P' = true ∧ preceded m P' false (scanAll (sts rules) s) = true := by
  induction rules generalizing P s with
  | nil => exact ⟨P, h, hs⟩
  | cons r rs ih =>
    simp only [predsOk] at h
    cases he : r.1.isEmpty with
    | true => rw [he] at h; simp at h
    | false =>
      rw [he, cond_false, Bool.and_eq_true] at h
      refine ih h.2 (preceded_scan (by intro e; rw [e] at he; cases he) ?_ h.1 (by simp) hs)
      intro c hc
      exact memNat_iff.2 (List.mem_append_right _ (memNat_iff.1 hc))

theorem preceded_of_not_mem {m : Nat} {P : List Nat} {s : Str} (h : m ∉ s) (b : Bool) :
    preceded m P b s = true := by
  induction s generalizing b with
  | nil => rfl
  | cons c s ih =>
    simp only [preceded, Bool.and_eq_true]
    refine ⟨?_, ih (fun hm => h (List.mem_cons_of_mem _ hm)) _⟩
    cases hc : Nat.beq c m with
    | true => exact absurd (by rw [Nat.eq_of_beq_eq_true hc]; simp) h
    | false => rfl

/-- `m` does not come after a character that is not one of `P`. -/
theorem preceded_not_infix {m c : Nat} {P : List Nat} {b : Bool} {s : Str}
    (h : preceded m P b s = true) (hc : memNat P c = false) : ¬ [c, m] <:+: s := by
  rintro ⟨u, v, rfl⟩
  rw [List.append_assoc, preceded_append, Bool.and_eq_true] at h
  have := h.2
  simp [preceded, hc] at this

/-! ## Letters that need something in the romanization -/

theorem run_needs {A : List Arc} {c : Nat} {l : Str}
    (hA : A.all (fun a => bif memNat a.inp c then isFactor l a.out else true) = true)
    {p q : Nat} {x y : Str} {w : Nat} (h : Run A p x y w q) (hc : c ∈ x) : l <:+: y := by
  induction h with
  | nil => cases hc
  | @cons a x y w q ha _ ih =>
    rcases List.mem_append.1 hc with hc | hc
    · have := List.all_eq_true.1 hA a ha
      rw [memNat_iff.2 hc, cond_true, isFactor_iff] at this
      exact this.trans (List.prefix_append _ _).isInfix
    · exact (ih hc).trans (List.suffix_append _ _).isInfix

theorem iso_needs {d : BrahmicData} {c : Nat} {l : Str}
    (hA : (isoArcs d).all (fun a => bif memNat a.inp c then isFactor l a.out else true) = true)
    {x y : Str} {w : Nat} (h : brahmicToIso d x y w) (hc : c ∈ x) : l <:+: y :=
  run_needs hA (brahmicToIso_iff_run.1 h) hc

/-- Characters that rules write were there before or are in a right-hand side. -/
theorem mem_scanAll {rules : List Rule} {s : Str} {c : Nat} (hc : c ∈ scanAll (sts rules) s) :
    c ∈ s ∨ ∃ r ∈ rules, c ∈ r.2 := by
  induction rules generalizing s with
  | nil => exact Or.inl hc
  | cons r rs ih =>
    rcases ih hc with h | ⟨q, hq, h⟩
    · have : Over (fun c => c ∈ s ∨ c ∈ r.2) (scan [r] 0 s) := by
        refine over_scan ?_ 0 s fun c hc => Or.inl hc
        intro p hp c hc
        rw [List.mem_singleton.1 hp] at hc
        exact Or.inr hc
      rcases this c h with h | h
      · exact Or.inl h
      · exact Or.inr ⟨r, by simp, h⟩
    · exact Or.inr ⟨q, List.mem_cons_of_mem _ hq, h⟩

/-! ## Reading pieces with a certificate -/

theorem foldl_step (C : Cert) (s : Str) (v : Nat) (pre : Str) (j : Nat) :
    s.foldl C.step (some (v, pre, j)) =
      (s.foldl C.step (some (0, [], j))).map fun r => (v + r.1, pre ++ r.2.1, r.2.2) := by
  have none : ∀ s : Str, s.foldl C.step none = none := by
    intro s
    induction s with
    | nil => rfl
    | cons c s ih => exact ih
  induction s generalizing v pre j with
  | nil => simp
  | cons c s ih =>
    simp only [List.foldl_cons, Cert.step]
    cases C.rows.find j with
    | none => simp [none]
    | some row =>
      cases hn : row.next.find c with
      | none => simp [none, hn]
      | some r =>
        obtain ⟨dw, p, k⟩ := r
        simp only [hn]
        rw [ih (v + dw), ih (0 + dw)]
        simp [Option.map_map, Function.comp_def, Nat.add_assoc]

/-- The output that ends a text at a row. -/
noncomputable def outAt (C : Cert) (j : Nat) : Option Str :=
  match C.rows.find j with
  | none => none
  | some row =>
    match finals row with
    | [] => none
    | e :: _ => some e.out

/-- From row `j` a piece is read to one of the rows `J`, and `z` is written. -/
noncomputable def readsOk (C : Cert) (J : List Nat) (j : Nat) (y z : Str) : Bool :=
  match y.foldl C.step (some (nat_lit 0, [], j)) with
  | none => false
  | some (_, p, k) =>
    bif memNat J k then
      match outAt C j, outAt C k with
      | some o, some o' => strEq (o ++ z) (p ++ o')
      | _, _ => false
    else false

/-- After `y` the machine is at one of the rows `J` and would write `z`. -/
def At (C : Cert) (J : List Nat) (y z : Str) : Prop :=
  ∃ v p k o, C.run y = some (v, p, k) ∧ k ∈ J ∧ outAt C k = some o ∧ z = p ++ o

theorem At.reads {C : Cert} {I J : List Nat} {y z y' z' : Str} (h : At C I y z)
    (hr : ∀ j ∈ I, readsOk C J j y' z' = true) : At C J (y ++ y') (z ++ z') := by
  obtain ⟨v, p, k, o, h1, h2, h3, rfl⟩ := h
  have hk := hr k h2
  unfold readsOk at hk
  have hrun : C.run (y ++ y') = y'.foldl C.step (some (v, p, k)) := by
    rw [Cert.run, List.foldl_append, ← Cert.run, h1]
  rw [foldl_step] at hrun
  cases hf : y'.foldl C.step (some (0, [], k)) with
  | none => rw [hf] at hk; simp at hk
  | some r =>
    obtain ⟨dw, p', k'⟩ := r
    rw [hf] at hk hrun
    simp only at hk
    cases hm : memNat J k' with
    | false => rw [hm] at hk; simp at hk
    | true =>
      rw [hm, cond_true, h3] at hk
      cases ho : outAt C k' with
      | none => rw [ho] at hk; simp at hk
      | some o' =>
        rw [ho] at hk
        have hk : strEq (o ++ z') (p' ++ o') = true := hk
        rw [Nisaba.strEq_iff] at hk
        exact ⟨_, _, k', o', hrun, memNat_iff.1 hm, ho, by simp [hk]⟩

theorem At.best {C : Cert} {J : List Nat} {y z : Str} (h : At C J y z) :
    ∃ w, C.best y = some (w, z) := by
  obtain ⟨v, p, k, o, h1, _, h3, rfl⟩ := h
  unfold outAt at h3
  cases hf : C.rows.find k with
  | none => rw [hf] at h3; simp at h3
  | some row =>
    rw [hf] at h3
    simp only at h3
    cases hl : finals row with
    | nil => rw [hl] at h3; simp at h3
    | cons e l =>
      rw [hl] at h3
      simp only [Option.some.injEq] at h3
      exact ⟨v + e.wt, by simp [Cert.best, h1, hf, hl, h3]⟩

end Nisaba.Fixed
