import Verif.Model.ErrorRate
/-!
# The alignment automaton of the error-rate tool

Paths of the composition are edit scripts of the two label sequences.
-/
namespace Nisaba.ErrorRate
open Nisaba Nisaba.Fst

/-- Labels given to a token sequence and the symbol table afterwards. -/
def labels : List Str → SymTab → List Nat × SymTab
  | [], syms => ([], syms)
  | tok :: toks, syms =>
    match syms.find tok with
    | some s => (s :: (labels toks syms).1, (labels toks syms).2)
    | none => (syms.length :: (labels toks (syms ++ [tok])).1, (labels toks (syms ++ [tok])).2)

/-- Arcs of a linear automaton whose first state is `n`. -/
def linFrom : Nat → List Nat → List (List (Arc Nat))
  | _, [] => [[]]
  | n, x :: l => [⟨x, x, 0, n + 1⟩] :: linFrom (n + 1) l

theorem modify_append_last {α} (pre : List α) (x y : α) (g : α → α) :
    (pre ++ [x] ++ [y]).modify pre.length g = pre ++ [g x] ++ [y] := by
  induction pre with
  | nil => simp [List.modify]
  | cons a pre ih => simpa using ih

theorem stringLoop_eq (toks : List Str) (f : VFst Nat) (syms : SymTab) (pre : List (List (Arc Nat)))
    (h : f.arcs = pre ++ [[]]) :
    stringLoop toks f syms pre.length =
      ({ f with arcs := pre ++ linFrom pre.length (labels toks syms).1 }, (labels toks syms).2,
        pre.length + toks.length) := by
  induction toks generalizing f syms pre with
  | nil => simp [stringLoop, labels, linFrom, ← h]
  | cons tok toks ih =>
    have step : ∀ (s : Nat) (syms' : SymTab),
        stringLoop toks ((f.addState.1).addArc pre.length ⟨s, s, 0, f.addState.2⟩) syms' f.addState.2 =
        ({ f with arcs := pre ++ [⟨s, s, 0, pre.length + 1⟩] ::
              linFrom (pre.length + 1) (labels toks syms').1 },
          (labels toks syms').2, pre.length + (toks.length + 1)) := by
      intro s syms'
      have h2 : f.addState.2 = pre.length + 1 := by simp [VFst.addState, h]
      have h3 : ((f.addState.1).addArc pre.length ⟨s, s, 0, pre.length + 1⟩).arcs =
          (pre ++ [[⟨s, s, 0, pre.length + 1⟩]]) ++ [[]] := by
        simp only [VFst.addState, VFst.addArc, h]
        rw [modify_append_last]; rfl
      rw [h2]
      have := ih _ syms' (pre ++ [[⟨s, s, 0, pre.length + 1⟩]]) h3
      simp only [List.length_append, List.length_cons, List.length_nil] at this
      rw [this]
      simp only [VFst.addArc, VFst.addState, List.append_assoc, List.singleton_append]
      simp [Nat.add_assoc, Nat.add_comm]
    rw [stringLoop, labels]
    cases hf : syms.find tok with
    | some s => simpa [linFrom] using step s syms
    | none => simpa [linFrom, SymTab.add] using step syms.length (syms ++ [tok])

theorem getStringFst_eq (toks : List Str) (syms : SymTab) :
    getStringFst toks syms =
      (⟨linFrom 0 (labels toks syms).1, some 0, [toks.length]⟩, (labels toks syms).2) := by
  have := stringLoop_eq toks ((({} : VFst Nat).addState.1).setStart 0) syms [] (by rfl)
  simp only [List.length_nil, List.nil_append, Nat.zero_add] at this
  have h0 : (({} : VFst Nat).addState).2 = 0 := rfl
  simp only [getStringFst]
  rw [h0, this]
  rfl

theorem labels_length (toks : List Str) (syms : SymTab) : (labels toks syms).1.length = toks.length := by
  induction toks generalizing syms with
  | nil => rfl
  | cons t toks ih => rw [labels]; cases syms.find t <;> simp [ih]

theorem find_some {syms : SymTab} {t : Str} {s : Nat} (h : syms.find t = some s) : syms[s]? = some t := by
  unfold SymTab.find at h
  rw [List.idxOf?_eq_some_iff] at h
  obtain ⟨h1, h2, _⟩ := h
  rw [List.getElem?_eq_getElem h1, h2]

theorem find_none {syms : SymTab} {t : Str} (h : syms.find t = none) : t ∉ syms := by
  unfold SymTab.find at h
  simpa using h

theorem labels_spec (toks : List Str) (syms : SymTab) (hn : syms.Nodup) :
    (labels toks syms).2.Nodup ∧ syms <+: (labels toks syms).2 ∧
    (labels toks syms).1.map (fun s => (labels toks syms).2[s]?) = toks.map some := by
  induction toks generalizing syms with
  | nil => simp [labels, hn]
  | cons t toks ih =>
    rw [labels]
    cases hf : syms.find t with
    | some s =>
      obtain ⟨a, b, c⟩ := ih syms hn
      refine ⟨a, b, ?_⟩
      have := find_some hf
      have h2 : (labels toks syms).2[s]? = some t := by
        have hs : s < syms.length := by
          have := List.getElem?_eq_some_iff.1 this; exact this.1
        rw [← this]
        obtain ⟨u, hu⟩ := b
        rw [← hu, List.getElem?_append_left hs]
      simp [h2, c]
    | none =>
      have hnot := find_none hf
      obtain ⟨a, b, c⟩ := ih (syms ++ [t]) (by
        rw [List.nodup_append]
        refine ⟨hn, by simp, ?_⟩
        intro x hx y hy; simp at hy; subst hy; rintro rfl; exact hnot hx)
      refine ⟨a, (List.prefix_append syms [t]).trans b, ?_⟩
      have h2 : (labels toks (syms ++ [t])).2[syms.length]? = some t := by
        obtain ⟨u, hu⟩ := b
        rw [← hu, List.getElem?_append_left (by simp)]
        simp
      simp [h2, c]

theorem linFrom_getElem (n : Nat) (l : List Nat) (s : Nat) (as : List (Arc Nat)) :
    (linFrom n l)[s]? = some as ↔
      (∃ x, l[s]? = some x ∧ as = [⟨x, x, 0, n + s + 1⟩]) ∨ (s = l.length ∧ as = []) := by
  induction l generalizing n s with
  | nil => cases s with
    | zero => simp [linFrom, eq_comm]
    | succ s => simp [linFrom]
  | cons y l ih => cases s with
    | zero => simp [linFrom, eq_comm]
    | succ s =>
      simp only [linFrom, List.getElem?_cons_succ, ih, List.length_cons]
      have : n + 1 + s + 1 = n + (s + 1) + 1 := by omega
      simp only [this]
      constructor
      · rintro (h | ⟨h, h'⟩)
        · exact .inl h
        · exact .inr ⟨by omega, h'⟩
      · rintro (h | ⟨h, h'⟩)
        · exact .inl h
        · exact .inr ⟨by omega, h'⟩

theorem lin_arc (l : List Nat) (st : Option Nat) (fin : List Nat) (s s' : Nat) (t : Step Nat) :
    (VFst.mach ⟨linFrom 0 l, st, fin⟩).arc s t s' ↔
      ∃ x, l[s]? = some x ∧ t = (x, x, 0) ∧ s' = s + 1 := by
  simp only [VFst.mach]
  constructor
  · rintro ⟨as, h, a, ha, rfl, rfl⟩
    rw [linFrom_getElem] at h
    rcases h with ⟨x, hx, rfl⟩ | ⟨_, rfl⟩
    · simp at ha; subst ha; exact ⟨x, hx, rfl, by simp⟩
    · simp at ha
  · rintro ⟨x, hx, rfl, rfl⟩
    exact ⟨_, (linFrom_getElem 0 l s _).2 (.inl ⟨x, hx, rfl⟩), _, List.mem_singleton.2 rfl, rfl, by simp⟩

/-- The arcs of the alignment model. -/
def IsAlignArc (num : Nat) (t : Step Nat) : Prop :=
  ∃ x, 1 ≤ x ∧ x < num ∧ (t = (x, 0, 1) ∨ t = (0, x, 1) ∨
    ∃ y, 1 ≤ y ∧ y < num ∧ t = (x, y, if x = y then 0 else 1))

theorem subArcs_arcs (sym : Nat) (subs : List Nat) (f : VFst Nat) (A : List (Arc Nat))
    (h : f.arcs = [A]) :
    subArcs sym subs f = { f with arcs := [A ++ subs.map (fun s => ⟨sym, s, if sym = s then 0 else 1, 0⟩)] } := by
  induction subs generalizing f A with
  | nil => simp [subArcs, ← h]
  | cons s subs ih =>
    have h2 : (f.addArc 0 ⟨sym, s, if sym = s then 0 else 1, 0⟩).arcs =
        [A ++ [⟨sym, s, if sym = s then 0 else 1, 0⟩]] := by
      simp [VFst.addArc, h, List.modify]
    have := ih _ _ h2
    simp only [subArcs, List.foldl_cons] at this ⊢
    rw [this]
    simp [VFst.addArc]

theorem alignMod_eq (num : Nat) :
    alignMod num = ⟨[(List.range' 1 (num - 1)).flatMap (fun x =>
      [⟨x, 0, 1, 0⟩, ⟨0, x, 1, 0⟩] ++
        (List.range' 1 (num - 1)).map (fun s => ⟨x, s, if x = s then 0 else 1, 0⟩))], some 0, [0]⟩ := by
  have key : ∀ (l : List Nat) (f : VFst Nat) (A : List (Arc Nat)), f.arcs = [A] →
      l.foldl (fun f sym => subArcs sym (List.range' 1 (num - 1))
        ((f.addArc 0 ⟨sym, 0, 1, 0⟩).addArc 0 ⟨0, sym, 1, 0⟩)) f =
      { f with arcs := [A ++ l.flatMap (fun x => [⟨x, 0, 1, 0⟩, ⟨0, x, 1, 0⟩] ++
        (List.range' 1 (num - 1)).map (fun s => ⟨x, s, if x = s then 0 else 1, 0⟩))] } := by
    intro l
    induction l with
    | nil => intro f A h; simp [← h]
    | cons x l ih =>
      intro f A h
      have h1 : ((f.addArc 0 ⟨x, 0, 1, 0⟩).addArc 0 ⟨0, x, 1, 0⟩).arcs =
          [A ++ [⟨x, 0, 1, 0⟩, ⟨0, x, 1, 0⟩]] := by
        simp [VFst.addArc, h, List.modify]
      rw [List.foldl_cons, subArcs_arcs _ _ _ _ h1, ih _ _ rfl]
      simp [VFst.addArc]
  have := key (List.range' 1 (num - 1)) (((({} : VFst Nat).addState.1).setStart 0).setFinal 0) [] rfl
  simp only [alignMod]
  have h0 : (({} : VFst Nat).addState).2 = 0 := rfl
  rw [h0, this]
  rfl

theorem align_arc (num : Nat) (s s' : Nat) (t : Step Nat) :
    (alignMod num).mach.arc s t s' ↔ s = 0 ∧ s' = 0 ∧ IsAlignArc num t := by
  rw [alignMod_eq]
  simp only [VFst.mach, IsAlignArc]
  constructor
  · rintro ⟨as, h, a, ha, rfl, rfl⟩
    cases s with
    | succ s => simp at h
    | zero =>
      simp only [List.getElem?_cons_zero, Option.some.injEq] at h
      subst h
      rw [List.mem_flatMap] at ha
      obtain ⟨x, hx, ha⟩ := ha
      rw [List.mem_range'_1] at hx
      simp only [List.mem_append, List.mem_cons, List.not_mem_nil, or_false, List.mem_map] at ha
      have hx2 : x < num := by omega
      rcases ha with (rfl | rfl) | ⟨y, hy, rfl⟩
      · exact ⟨rfl, rfl, x, hx.1, hx2, .inl rfl⟩
      · exact ⟨rfl, rfl, x, hx.1, hx2, .inr (.inl rfl)⟩
      · rw [List.mem_range'_1] at hy
        exact ⟨rfl, rfl, x, hx.1, hx2, .inr (.inr ⟨y, hy.1, by omega, rfl⟩)⟩
  · rintro ⟨rfl, rfl, x, hx1, hx2, h⟩
    refine ⟨_, rfl, ?_⟩
    have hx : x ∈ List.range' 1 (num - 1) := by rw [List.mem_range'_1]; omega
    rcases h with rfl | rfl | ⟨y, hy1, hy2, rfl⟩
    · exact ⟨⟨x, 0, 1, 0⟩, List.mem_flatMap.2 ⟨x, hx, by simp⟩, rfl, rfl⟩
    · exact ⟨⟨0, x, 1, 0⟩, List.mem_flatMap.2 ⟨x, hx, by simp⟩, rfl, rfl⟩
    · have hy : y ∈ List.range' 1 (num - 1) := by rw [List.mem_range'_1]; omega
      refine ⟨⟨x, y, if x = y then 0 else 1, 0⟩, List.mem_flatMap.2 ⟨x, hx, ?_⟩, rfl, rfl⟩
      exact List.mem_append_right _ (List.mem_map.2 ⟨y, hy, rfl⟩)

/-- Edit scripts of two label sequences: the paths of the composition. -/
inductive Script : List Nat → List Nat → List (Step Nat) → Prop
  | nil : Script [] [] []
  | epsT {t r p} : Script t r p → Script (0 :: t) r ((0, 0, 0) :: p)
  | epsR {t r p} : Script t r p → Script t (0 :: r) ((0, 0, 0) :: p)
  | ins {x t r p} : x ≠ 0 → Script t r p → Script (x :: t) r ((x, 0, 1) :: p)
  | del {y t r p} : y ≠ 0 → Script t r p → Script t (y :: r) ((0, y, 1) :: p)
  | pair {x y t r p} : x ≠ 0 → y ≠ 0 → Script t r p →
      Script (x :: t) (y :: r) ((x, y, if x = y then 0 else 1) :: p)

theorem drop_of_getElem? {l : List Nat} {i x : Nat} (h : l[i]? = some x) :
    l.drop i = x :: l.drop (i + 1) := by
  have := List.getElem?_eq_some_iff.1 h
  rw [List.drop_eq_getElem_cons this.1, this.2]

variable {num : Nat} {t r : List Nat}

/-- The composed machine for label sequences. -/
abbrev machOf (num : Nat) (t r : List Nat) : Mach ((Nat × Nat) × Nat) Nat :=
  ((VFst.mach ⟨linFrom 0 t, some 0, [t.length]⟩).compose (alignMod num).mach).compose
    (VFst.mach ⟨linFrom 0 r, some 0, [r.length]⟩)

theorem path_script {s : (Nat × Nat) × Nat} {p : List (Step Nat)} (h : (machOf num t r).Path s p) :
    Script (t.drop s.1.1) (r.drop s.2) p := by
  induction h with
  | @nil s h =>
    obtain ⟨⟨h1, _⟩, h2⟩ := h
    simp only [VFst.mach, List.mem_singleton] at h1 h2
    rw [h1, h2, List.drop_length, List.drop_length]
    exact .nil
  | @cons s s' x p h _ ih =>
    obtain ⟨⟨i, a⟩, j⟩ := s
    obtain ⟨⟨i', a'⟩, j'⟩ := s'
    obtain ⟨xi, xo, xw⟩ := x
    simp only [Mach.compose] at h
    simp only at ih ⊢
    rcases h with ⟨l, v, w, hl, h1, h2, hw⟩ | ⟨ho, h1, rfl⟩ | ⟨hi, h1, h2⟩
    · rw [lin_arc] at h2
      obtain ⟨y, hy, he, rfl⟩ := h2
      obtain ⟨rfl, rfl, rfl⟩ : l = y ∧ xo = y ∧ w = 0 := by simpa using he
      rw [drop_of_getElem? hy]
      rcases h1 with ⟨k, v1, v2, hk, h3, h4, hv⟩ | ⟨h0, _⟩ | ⟨h0, h3, h4⟩
      · rw [lin_arc] at h3
        obtain ⟨z, hz, he3, rfl⟩ := h3
        obtain ⟨rfl, rfl, rfl⟩ : xi = z ∧ k = z ∧ v1 = 0 := by simpa using he3
        rw [align_arc] at h4
        obtain ⟨_, _, m, hm1, hm2, h5⟩ := h4
        rw [drop_of_getElem? hz]
        rcases h5 with h5 | h5 | ⟨q, hq1, hq2, h5⟩
        · exact absurd (by simpa using congrArg (·.2.1) h5) hl
        · exact absurd (by simpa using congrArg (·.1) h5) hk
        · obtain ⟨rfl, rfl, rfl⟩ : k = m ∧ xo = q ∧ v2 = _ := by simpa using h5
          have : xw = if k = xo then 0 else 1 := by rw [hw, hv]; simp
          rw [this]
          exact .pair hk hl ih
      · exact absurd h0 hl
      · subst h0
        subst h4
        rw [align_arc] at h3
        obtain ⟨_, _, m, hm1, hm2, h5⟩ := h3
        rcases h5 with h5 | h5 | ⟨q, hq1, hq2, h5⟩
        · exact absurd (by simpa using congrArg (·.2.1) h5) hl
        · have : v = 1 := by simpa using congrArg (·.2.2) h5
          have : xw = 1 := by rw [hw, this]
          rw [this]
          exact .del hl ih
        · have : (0 : Nat) = m := by simpa using congrArg (·.1) h5
          omega
    · subst ho
      rcases h1 with ⟨k, v1, v2, hk, h3, h4, hv⟩ | ⟨_, h3, h4⟩ | ⟨h0, h3, h4⟩
      · rw [lin_arc] at h3
        obtain ⟨z, hz, he3, rfl⟩ := h3
        obtain ⟨rfl, rfl, rfl⟩ : xi = z ∧ k = z ∧ v1 = 0 := by simpa using he3
        rw [align_arc] at h4
        obtain ⟨_, _, m, hm1, hm2, h5⟩ := h4
        rw [drop_of_getElem? hz]
        rcases h5 with h5 | h5 | ⟨q, hq1, hq2, h5⟩
        · have h6 : v2 = 1 := by simpa using congrArg (·.2.2) h5
          have : xw = 1 := by rw [hv, h6]
          rw [this]
          exact .ins hk ih
        · exact absurd (by simpa using congrArg (·.1) h5) hk
        · have : (0 : Nat) = q := by simpa using congrArg (·.2.1) h5
          omega
      · rw [lin_arc] at h3
        obtain ⟨z, hz, he3, rfl⟩ := h3
        obtain ⟨rfl, rfl, rfl⟩ : xi = z ∧ 0 = z ∧ xw = 0 := by simpa using he3
        rw [drop_of_getElem? hz]
        exact .epsT ih
      · subst h0
        rw [align_arc] at h3
        obtain ⟨_, _, m, hm1, hm2, h5⟩ := h3
        rcases h5 with h5 | h5 | ⟨q, hq1, hq2, h5⟩
        · have : (0 : Nat) = m := by simpa using congrArg (·.1) h5
          omega
        · have : (0 : Nat) = m := by simpa using congrArg (·.2.1) h5
          omega
        · have : (0 : Nat) = m := by simpa using congrArg (·.1) h5
          omega
    · subst hi
      obtain ⟨rfl, rfl⟩ : i' = i ∧ a' = a := by simpa using h2
      rw [lin_arc] at h1
      obtain ⟨z, hz, he3, rfl⟩ := h1
      obtain ⟨rfl, rfl, rfl⟩ : 0 = z ∧ xo = z ∧ xw = 0 := by simpa using he3
      rw [drop_of_getElem? hz]
      exact .epsR ih

theorem getElem?_of_drop {l l' : List Nat} {i x : Nat} (h : l.drop i = x :: l') :
    l[i]? = some x ∧ l.drop (i + 1) = l' := by
  constructor
  · have := congrArg (fun m => m[0]?) h
    simpa using this
  · have := congrArg List.tail h
    simpa using this

theorem drop_nil_eq {l : List Nat} {i : Nat} (hi : i ≤ l.length) (h : l.drop i = []) : i = l.length := by
  rw [List.drop_eq_nil_iff] at h; omega

theorem script_path {t' r' : List Nat} {p : List (Step Nat)} (h : Script t' r' p)
    (ht : ∀ x ∈ t, x < num) (hr : ∀ x ∈ r, x < num)
    (i j : Nat) (hi : i ≤ t.length) (hj : j ≤ r.length) (hti : t.drop i = t') (hrj : r.drop j = r') :
    (machOf num t r).Path ((i, 0), j) p := by
  induction h generalizing i j with
  | nil =>
    refine .nil ⟨⟨?_, ?_⟩, ?_⟩
    · simpa [VFst.mach] using drop_nil_eq hi hti
    · rw [alignMod_eq]; simp [VFst.mach]
    · simpa [VFst.mach] using drop_nil_eq hj hrj
  | epsT _ ih =>
    obtain ⟨h1, h2⟩ := getElem?_of_drop hti
    have hlt := (List.getElem?_eq_some_iff.1 h1).1
    refine .cons (s' := ((i + 1, 0), j)) ?_ (ih _ _ (by omega) hj h2 hrj)
    exact .inr (.inl ⟨rfl, .inr (.inl ⟨rfl, (lin_arc _ _ _ _ _ _).2 ⟨0, h1, rfl, rfl⟩, rfl⟩), rfl⟩)
  | epsR _ ih =>
    obtain ⟨h1, h2⟩ := getElem?_of_drop hrj
    have hlt := (List.getElem?_eq_some_iff.1 h1).1
    refine .cons (s' := ((i, 0), j + 1)) ?_ (ih _ _ hi (by omega) hti h2)
    exact .inr (.inr ⟨rfl, (lin_arc _ _ _ _ _ _).2 ⟨0, h1, rfl, rfl⟩, rfl⟩)
  | @ins x _ _ _ hx _ ih =>
    obtain ⟨h1, h2⟩ := getElem?_of_drop hti
    have hlt := (List.getElem?_eq_some_iff.1 h1).1
    refine .cons (s' := ((i + 1, 0), j)) ?_ (ih _ _ (by omega) hj h2 hrj)
    refine .inr (.inl ⟨rfl, .inl ⟨x, 0, 1, hx, (lin_arc _ _ _ _ _ _).2 ⟨x, h1, rfl, rfl⟩, ?_, rfl⟩, rfl⟩)
    exact (align_arc _ _ _ _).2 ⟨rfl, rfl, x, by omega, ht x (List.mem_of_getElem? h1), .inl rfl⟩
  | @del y _ _ _ hy _ ih =>
    obtain ⟨h1, h2⟩ := getElem?_of_drop hrj
    have hlt := (List.getElem?_eq_some_iff.1 h1).1
    refine .cons (s' := ((i, 0), j + 1)) ?_ (ih _ _ hi (by omega) hti h2)
    refine .inl ⟨y, 1, 0, hy, .inr (.inr ⟨rfl, ?_, rfl⟩), (lin_arc _ _ _ _ _ _).2 ⟨y, h1, rfl, rfl⟩, rfl⟩
    exact (align_arc _ _ _ _).2 ⟨rfl, rfl, y, by omega, hr y (List.mem_of_getElem? h1), .inr (.inl rfl)⟩
  | @pair x y _ _ _ hx hy _ ih =>
    obtain ⟨h1, h2⟩ := getElem?_of_drop hti
    obtain ⟨h3, h4⟩ := getElem?_of_drop hrj
    have hlt := (List.getElem?_eq_some_iff.1 h1).1
    have hlt' := (List.getElem?_eq_some_iff.1 h3).1
    refine .cons (s' := ((i + 1, 0), j + 1)) ?_ (ih _ _ (by omega) (by omega) h2 h4)
    refine .inl ⟨y, if x = y then 0 else 1, 0, hy,
      .inl ⟨x, 0, if x = y then 0 else 1, hx, (lin_arc _ _ _ _ _ _).2 ⟨x, h1, rfl, rfl⟩, ?_, by simp⟩,
      (lin_arc _ _ _ _ _ _).2 ⟨y, h3, rfl, rfl⟩, by simp⟩
    exact (align_arc _ _ _ _).2 ⟨rfl, rfl, x, by omega, ht x (List.mem_of_getElem? h1),
      .inr (.inr ⟨y, by omega, hr y (List.mem_of_getElem? h3), rfl⟩)⟩

theorem accepts_iff (ht : ∀ x ∈ t, x < num) (hr : ∀ x ∈ r, x < num) (p : List (Step Nat)) :
    (machOf num t r).Accepts p ↔ Script t r p := by
  constructor
  · rintro ⟨⟨⟨i, a⟩, j⟩, ⟨⟨h1, _⟩, h2⟩, hp⟩
    have hi : 0 = i := by simpa [VFst.mach] using h1
    have hj : 0 = j := by simpa [VFst.mach] using h2
    have := path_script hp
    simpa [← hi, ← hj] using this
  · intro h
    refine ⟨((0, 0), 0), ⟨⟨rfl, ?_⟩, rfl⟩, script_path h ht hr 0 0 (by omega) (by omega) rfl rfl⟩
    rw [alignMod_eq]; rfl

/-- Edits counted along a script and its weight. -/
theorem script_weight {t r : List Nat} {p : List (Step Nat)} (h : Script t r p) (e : EditDistance) :
    (countEdits p e).edits = e.edits + weight p ∧ (countEdits p e).referenceLength = e.referenceLength := by
  induction h generalizing e with
  | nil => simp [countEdits, weight]
  | epsT _ ih => simpa [countEdits, weight] using ih e
  | epsR _ ih => simpa [countEdits, weight] using ih e
  | @ins x _ _ _ hx _ ih =>
    have := ih { e with insertions := e.insertions + 1 }
    simp only [countEdits, hx, weight, EditDistance.edits, List.map_cons, List.sum_cons] at this ⊢
    simp only [ne_eq, hx, not_false_eq_true, if_true, if_false] at this ⊢
    exact ⟨by omega, this.2⟩
  | @del y _ _ _ hy _ ih =>
    have := ih { e with deletions := e.deletions + 1 }
    have hy' : ¬ (0 = y) := fun h => hy h.symm
    simp only [countEdits, weight, EditDistance.edits, List.map_cons, List.sum_cons] at this ⊢
    simp only [ne_eq, hy', not_false_eq_true, if_true]
    exact ⟨by omega, this.2⟩
  | @pair x y _ _ _ hx hy _ ih =>
    by_cases hxy : x = y
    · have := ih e
      simp only [countEdits, hxy, weight, EditDistance.edits, List.map_cons, List.sum_cons] at this ⊢
      simp only [ne_eq, not_true_eq_false, if_true, if_false]
      exact ⟨by omega, this.2⟩
    · have := ih { e with substitutions := e.substitutions + 1 }
      simp only [countEdits, hxy, hx, hy, weight, EditDistance.edits, List.map_cons, List.sum_cons] at this ⊢
      simp only [ne_eq, hxy, not_false_eq_true, if_true, if_false] at this ⊢
      exact ⟨by omega, this.2⟩

end Nisaba.ErrorRate
