import Verif.Lemmas.Stream
import Verif.Lemmas.Runs
/-!
# Texts made of pieces that a cascade rewrites independently
-/
namespace Nisaba.Pieces

noncomputable section

/-- No left-hand side crosses the border between `a` and `b`. -/
def NoCross (rs : List Rule) (a b : Str) : Prop :=
  ∀ p ∈ rs, ∀ l₁ l₂, p.1 = l₁ ++ l₂ → l₁ ≠ [] → l₂ ≠ [] → l₁ <:+ a → ¬ l₂ <+: b

theorem findRule_split {rs : List Rule} {a b : Str} (ha : a ≠ []) (h : NoCross rs a b) :
    findRule rs (a ++ b) = findRule rs a := by
  induction rs with
  | nil => rfl
  | cons p rs ih =>
    have e : isPre p.1 (a ++ b) = isPre p.1 a := by
      rw [Bool.eq_iff_iff, isPre_iff, isPre_iff]
      constructor
      · intro hp
        rcases Nat.le_total p.1.length a.length with hl | hl
        · exact List.prefix_of_prefix_length_le hp ⟨_, rfl⟩ hl
        · obtain ⟨u, hu⟩ := List.prefix_of_prefix_length_le (⟨b, rfl⟩ : a <+: a ++ b) hp hl
          cases u with
          | nil => rw [List.append_nil] at hu; rw [hu]; exact List.prefix_refl _
          | cons d u =>
            rw [← hu] at hp
            exact absurd ((List.prefix_append_right_inj a).1 hp)
              (h p (by simp) a (d :: u) hu.symm ha (by simp) (List.suffix_refl a))
      · rintro ⟨t, ht⟩; exact ⟨t ++ b, by rw [← ht]; simp⟩
    simp only [findRule, e]
    rw [ih fun q hq => h q (List.mem_cons_of_mem _ hq)]

theorem NoCross.tail {rs : List Rule} {a a' b : Str} (h : NoCross rs a b) (hs : a' <:+ a) :
    NoCross rs a' b := fun p hp l₁ l₂ e h1 h2 h3 => h p hp l₁ l₂ e h1 h2 (h3.trans hs)

theorem scan_split {rs : List Rule} (hne : LhsNonempty rs) {a b : Str} (h : NoCross rs a b) :
    scan rs 0 (a ++ b) = scan rs 0 a ++ scan rs 0 b := by
  generalize hn : a.length = n
  induction n using Nat.strongRecOn generalizing a with
  | _ n ih =>
    cases a with
    | nil => simp [scan]
    | cons d a =>
      have hf := findRule_split (by simp) h
      cases hf' : findRule rs (d :: a) with
      | none =>
        rw [hf'] at hf
        rw [List.cons_append] at hf ⊢
        rw [scan_none hf', scan_none hf,
          ih a.length (by simp at hn; omega) (h.tail (List.suffix_cons d a)) rfl]
        simp
      | some p =>
        rw [hf'] at hf
        rw [scan_some hne hf, scan_some hne hf']
        obtain ⟨hp, t, ht⟩ := findRule_some hf'
        have e1 : (d :: a ++ b).drop p.1.length = t ++ b := by rw [← ht]; simp
        have e2 : (d :: a).drop p.1.length = t := by rw [← ht]; simp
        have hlt : t.length < n := by
          have h1 : (d :: a).length = p.1.length + t.length := by rw [← ht]; simp
          have h2 : p.1.length ≠ 0 := fun e => hne p hp (List.length_eq_zero_iff.1 e)
          omega
        rw [e1, e2, ih t.length hlt (h.tail ⟨p.1, ht⟩) rfl]
        simp

/-! ## Groups of pieces -/

/-- `x` may be followed by `y`: they are in groups that may follow each other. -/
def Follows (adj : List (Nat × Nat)) (G : List (List Str)) (x y : Str) : Prop :=
  ∃ p ∈ adj, x ∈ G.getD p.1 [] ∧ y ∈ G.getD p.2 []

/-- Every piece but the last may be followed by the next one. -/
def Chained (R : Str → Str → Prop) : List Str → Prop
  | x :: y :: l => R x y ∧ Chained R (y :: l)
  | _ => True

theorem Chained.tail {R : Str → Str → Prop} {x : Str} {l : List Str} (h : Chained R (x :: l)) :
    Chained R l := by
  cases l with
  | nil => trivial
  | cons y l => exact h.2

theorem Chained.map {R S : Str → Str → Prop} {f : Str → Str} (hf : ∀ x y, R x y → S (f x) (f y))
    {l : List Str} (h : Chained R l) : Chained S (l.map f) := by
  induction l with
  | nil => trivial
  | cons x l ih =>
    cases l with
    | nil => trivial
    | cons y l => exact ⟨hf x y h.1, ih h.2⟩

/-- `l` and `y` agree as far as both go. -/
def compat : Str → Str → Bool
  | [], _ => true
  | _ :: _, [] => true
  | a :: l, b :: y => bif Nat.beq a b then compat l y else false

theorem compat_of_prefix {l y r : Str} (h : l <+: y ++ r) : compat l y = true := by
  induction l generalizing y with
  | nil => rfl
  | cons a l ih =>
    cases y with
    | nil => rfl
    | cons b y =>
      rw [List.cons_append] at h
      obtain ⟨rfl, h'⟩ := List.cons_prefix_cons.1 h
      simp only [compat, Nat.beq_refl, cond_true]
      exact ih h'

def endsWith (l x : Str) : Bool := isPre l.reverse x.reverse

theorem endsWith_iff {l x : Str} : endsWith l x = true ↔ l <:+ x := by
  rw [endsWith, isPre_iff, List.reverse_prefix]

/-- The ways to cut a text in two non-empty parts. -/
def cuts : Str → List (Str × Str)
  | [] => []
  | a :: s => (bif s.isEmpty then [] else [([a], s)]) ++ (cuts s).map fun p => (a :: p.1, p.2)

theorem mem_cuts {s l₁ l₂ : Str} (e : s = l₁ ++ l₂) (h1 : l₁ ≠ []) (h2 : l₂ ≠ []) :
    (l₁, l₂) ∈ cuts s := by
  induction s generalizing l₁ with
  | nil => simp at e; exact absurd e.1 h1
  | cons a s ih =>
    cases l₁ with
    | nil => exact absurd rfl h1
    | cons b l₁ =>
      simp only [List.cons_append, List.cons.injEq] at e
      obtain ⟨rfl, e⟩ := e
      simp only [cuts, List.mem_append, List.mem_map]
      by_cases h : l₁ = []
      · subst h
        left
        cases s with
        | nil => exact absurd e.symm h2
        | cons c s => rw [e]; cases l₂ <;> simp_all
      · right
        exact ⟨(l₁, l₂), ih e h, rfl⟩

/-- No left-hand side crosses the border of pieces that may follow each other. -/
def borderOk (adj : List (Nat × Nat)) (G : List (List Str)) (l : Str) : Bool :=
  (cuts l).all fun p =>
    let E := G.map fun g => g.any (endsWith p.1)
    bif E.any (fun b => b) then
      let B := G.map fun g => g.any (compat p.2)
      adj.all fun q => bif E.getD q.1 false then (bif B.getD q.2 false then false else true) else true
    else true

theorem borderOk_noCross {adj : List (Nat × Nat)} {G : List (List Str)} {rs : List Rule}
    (h : rs.all (fun p => borderOk adj G p.1) = true) {x y r : Str} (hxy : Follows adj G x y) :
    NoCross rs x (y ++ r) := by
  intro p hp l₁ l₂ e h1 h2 hs hpre
  have hb := List.all_eq_true.1 (List.all_eq_true.1 h p hp) _ (mem_cuts e h1 h2)
  obtain ⟨q, hq, hx, hy⟩ := hxy
  have get : ∀ (f : List Str → Bool) (i : Nat), (G.getD i []) ≠ [] →
      (G.map f).getD i false = f (G.getD i []) := by
    intro f i hi
    simp only [List.getD_eq_getElem?_getD, List.getElem?_map] at hi ⊢
    cases hg : G[i]? with
    | none => simp [hg] at hi
    | some g => simp
  have hE : (G.map fun g => g.any (endsWith l₁)).getD q.1 false = true := by
    rw [get _ _ (List.ne_nil_of_mem hx)]
    exact List.any_eq_true.2 ⟨x, hx, endsWith_iff.2 hs⟩
  have hB : (G.map fun g => g.any (compat l₂)).getD q.2 false = true := by
    rw [get _ _ (List.ne_nil_of_mem hy)]
    exact List.any_eq_true.2 ⟨y, hy, compat_of_prefix hpre⟩
  have hany : (G.map fun g => g.any (endsWith l₁)).any (fun b => b) = true := by
    refine List.any_eq_true.2 ⟨true, ?_, rfl⟩
    rw [← hE]
    simp only [List.getD_eq_getElem?_getD] at hE ⊢
    cases hg : (G.map fun g => g.any (endsWith l₁))[q.1]? with
    | none => rw [hg] at hE; simp at hE
    | some b => simpa using List.mem_of_getElem? hg
  simp only [hany, cond_true] at hb
  have := List.all_eq_true.1 hb q hq
  simp only [hE, hB, cond_true, Bool.false_eq_true] at this

/-- `scan`, quickly when no left-hand side begins inside the text. -/
def scanQ (rs : List Rule) (heads : List Nat) (x : Str) : Str :=
  bif x.any (memNat heads) then scan rs 0 x else x

def headsOf (rs : List Rule) : List Nat := rs.flatMap fun p => p.1.take 1

theorem scanQ_eq {rs : List Rule} (hne : LhsNonempty rs) (x : Str) :
    scanQ rs (headsOf rs) x = scan rs 0 x := by
  unfold scanQ
  cases h : x.any (memNat (headsOf rs)) with
  | true => rfl
  | false =>
    refine (scan_fixed fun p hp hin => ?_).symm
    obtain ⟨c, l, hl⟩ := List.exists_cons_of_ne_nil (hne p hp)
    have hc : c ∈ x := hin.subset (by rw [hl]; simp)
    have : x.any (memNat (headsOf rs)) = true :=
      List.any_eq_true.2 ⟨c, hc, memNat_iff.2 (List.mem_flatMap.2 ⟨p, hp, by rw [hl]; simp⟩)⟩
    rw [h] at this
    cases this

/-! Pieces are evaluated before they are passed on; the kernel is faster that way. -/

/-- `s`, evaluated and passed on. -/
def strK (s : Str) (k : Str → Bool) : Bool :=
  List.rec (motive := fun _ => (Str → Bool) → Bool) (fun k => k [])
    (fun a _ ih k => ih fun r => k (a :: r)) s k

def groupK (f : Str → Str) (g : List Str) (k : List Str → Bool) : Bool :=
  List.rec (motive := fun _ => (List Str → Bool) → Bool) (fun k => k [])
    (fun a _ ih k => strK (f a) fun b => ih fun r => k (b :: r)) g k

def groupsK (f : Str → Str) (G : List (List Str)) (k : List (List Str) → Bool) : Bool :=
  List.rec (motive := fun _ => (List (List Str) → Bool) → Bool) (fun k => k [])
    (fun a _ ih k => groupK f a fun b => ih fun r => k (b :: r)) G k

theorem strK_eq (s : Str) (k : Str → Bool) : strK s k = k s := by
  induction s generalizing k with
  | nil => rfl
  | cons a s ih => exact ih fun r => k (a :: r)

theorem groupK_eq (f : Str → Str) (g : List Str) (k : List Str → Bool) :
    groupK f g k = k (g.map f) := by
  induction g generalizing k with
  | nil => rfl
  | cons a g ih =>
    show strK (f a) (fun b => groupK f g fun r => k (b :: r)) = _
    rw [strK_eq, ih]; rfl

theorem groupsK_eq (f : Str → Str) (G : List (List Str)) (k : List (List Str) → Bool) :
    groupsK f G k = k (G.map fun g => g.map f) := by
  induction G generalizing k with
  | nil => rfl
  | cons a g ih =>
    show groupK f a (fun b => groupsK f g fun r => k (b :: r)) = _
    rw [groupK_eq, ih]; rfl

/-- All stages keep to the borders; `fin` checks the pieces at the end. -/
def piecesOk (adj : List (Nat × Nat)) (fin : List (List Str) → Bool) :
    List (List Rule) → List (List Str) → Bool
  | [], G => fin G
  | st :: sts, G =>
    bif st.all (fun p => borderOk adj G p.1) then
      groupsK (scanQ st (headsOf st)) G (piecesOk adj fin sts)
    else false

theorem follows_map {adj : List (Nat × Nat)} {G : List (List Str)} (f : Str → Str) {x y : Str}
    (h : Follows adj G x y) : Follows adj (G.map fun g => g.map f) (f x) (f y) := by
  obtain ⟨p, hp, hx, hy⟩ := h
  have key : ∀ (i : Nat) (z : Str), z ∈ G.getD i [] → f z ∈ (G.map fun g => g.map f).getD i [] := by
    intro i z hz
    simp only [List.getD_eq_getElem?_getD, List.getElem?_map] at hz ⊢
    cases hg : G[i]? with
    | none => simp [hg] at hz
    | some g => rw [hg] at hz; exact List.mem_map.2 ⟨z, hz, rfl⟩
  exact ⟨p, hp, key _ _ hx, key _ _ hy⟩

theorem scan_pieces {adj : List (Nat × Nat)} {G : List (List Str)} {rs : List Rule}
    (hne : LhsNonempty rs) (h : rs.all (fun p => borderOk adj G p.1) = true) {L : List Str}
    (hL : Chained (Follows adj G) L) :
    scan rs 0 L.flatten = (L.map (scan rs 0)).flatten := by
  induction L with
  | nil => rfl
  | cons x L ih =>
    rw [List.map_cons, List.flatten_cons, List.flatten_cons, ← ih hL.tail]
    cases L with
    | nil => simp [scan]
    | cons y L =>
      refine scan_split hne ?_
      rw [List.flatten_cons]
      exact borderOk_noCross h hL.1

/-- A cascade rewrites checked pieces independently. -/
theorem scanAll_pieces {adj : List (Nat × Nat)} {fin : List (List Str) → Bool}
    {sts : List (List Rule)} {G : List (List Str)} (hne : ∀ st ∈ sts, LhsNonempty st)
    (h : piecesOk adj fin sts G = true) :
    fin (G.map fun g => g.map (scanAll sts)) = true ∧ ∀ {L : List Str},
      Chained (Follows adj G) L → scanAll sts L.flatten = (L.map (scanAll sts)).flatten := by
  induction sts generalizing G with
  | nil =>
    refine ⟨?_, ?_⟩
    · simpa [scanAll, piecesOk] using h
    · intro L _; simp [scanAll]
  | cons st sts ih =>
    simp only [piecesOk] at h
    cases hb : st.all (fun p => borderOk adj G p.1) with
    | false => rw [hb] at h; simp at h
    | true =>
      rw [hb, cond_true] at h
      have hst := hne st (by simp)
      have e : scanQ st (headsOf st) = scan st 0 := funext fun x => scanQ_eq hst x
      rw [groupsK_eq, e] at h
      obtain ⟨h1, h2⟩ := ih (fun s hs => hne s (List.mem_cons_of_mem _ hs)) h
      refine ⟨?_, fun {L} hL => ?_⟩
      · simpa [scanAll, List.map_map, Function.comp_def] using h1
      · simp only [scanAll]
        rw [scan_pieces hst hb hL, h2 (hL.map fun x y h => follows_map _ h), List.map_map]
        rfl

end

end Nisaba.Pieces
