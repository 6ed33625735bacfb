import Verif.Lemmas.ErrorRate
import Verif.Props.Delimiters
/-!
# C34, C35, C40, C50: error counts of the evaluation tool
-/
namespace Nisaba.Props
open Nisaba Nisaba.Fst Nisaba.Utf8 Nisaba.ErrorRate

/-- `Align test ref s i d`: some alignment of the two sequences has `s` substitutions, `i` tokens of
`test` left over and `d` tokens of `ref` left over; tokens are aligned in order. -/
inductive Align {α : Type} : List α → List α → Nat → Nat → Nat → Prop
  | nil : Align [] [] 0 0 0
  | same {x t r s i d} : Align t r s i d → Align (x :: t) (x :: r) s i d
  | subst {x y t r s i d} : x ≠ y → Align t r s i d → Align (x :: t) (y :: r) (s + 1) i d
  | ins {x t r s i d} : Align t r s i d → Align (x :: t) r s (i + 1) d
  | del {y t r s i d} : Align t r s i d → Align t (y :: r) s i (d + 1)

/-- The counts come from one alignment and their sum is least. -/
def MinCounts {α : Type} (test ref : List α) (s i d : Nat) : Prop :=
  Align test ref s i d ∧ ∀ s' i' d', Align test ref s' i' d' → s + i + d ≤ s' + i' + d'

theorem align_map {α β : Type} (g : α → β) {t r : List α}
    (hg : ∀ x ∈ t ++ r, ∀ y ∈ t ++ r, g x = g y → x = y) (s i d : Nat) :
    Align (t.map g) (r.map g) s i d ↔ Align t r s i d := by
  constructor
  · intro h
    generalize ht : t.map g = t' at h
    generalize hr : r.map g = r' at h
    induction h generalizing t r with
    | nil => simp at ht hr; subst ht hr; exact .nil
    | same _ ih =>
      obtain ⟨a, t2, rfl, ha, rfl⟩ := List.map_eq_cons_iff.1 ht
      obtain ⟨b, r2, rfl, hb, rfl⟩ := List.map_eq_cons_iff.1 hr
      have : a = b := hg a (by simp) b (by simp) (ha.trans hb.symm)
      subst this
      refine .same (ih (fun x hx y hy => hg x ?_ y ?_) rfl rfl)
      · simp at hx ⊢; rcases hx with h | h <;> simp [h]
      · simp at hy ⊢; rcases hy with h | h <;> simp [h]
    | subst hne _ ih =>
      obtain ⟨a, t2, rfl, ha, rfl⟩ := List.map_eq_cons_iff.1 ht
      obtain ⟨b, r2, rfl, hb, rfl⟩ := List.map_eq_cons_iff.1 hr
      refine .subst (fun h => hne (by rw [← ha, ← hb, h])) (ih (fun x hx y hy => hg x ?_ y ?_) rfl rfl)
      · simp at hx ⊢; rcases hx with h | h <;> simp [h]
      · simp at hy ⊢; rcases hy with h | h <;> simp [h]
    | ins _ ih =>
      obtain ⟨a, t2, rfl, ha, rfl⟩ := List.map_eq_cons_iff.1 ht
      refine .ins (ih (fun x hx y hy => hg x ?_ y ?_) rfl hr)
      · simp at hx ⊢; rcases hx with h | h <;> simp [h]
      · simp at hy ⊢; rcases hy with h | h <;> simp [h]
    | del _ ih =>
      obtain ⟨b, r2, rfl, hb, rfl⟩ := List.map_eq_cons_iff.1 hr
      refine .del (ih (fun x hx y hy => hg x ?_ y ?_) ht rfl)
      · simp at hx ⊢; rcases hx with h | h <;> simp [h]
      · simp at hy ⊢; rcases hy with h | h <;> simp [h]
  · intro h
    induction h with
    | nil => exact .nil
    | same _ ih =>
      refine .same (ih (fun x hx y hy => hg x ?_ y ?_))
      · simp at hx ⊢; rcases hx with h | h <;> simp [h]
      · simp at hy ⊢; rcases hy with h | h <;> simp [h]
    | @subst x y t r _ _ _ hne _ ih =>
      refine .subst (fun h => hne (hg x (by simp) y (by simp) h)) (ih (fun x hx y hy => hg x ?_ y ?_))
      · simp at hx ⊢; rcases hx with h | h <;> simp [h]
      · simp at hy ⊢; rcases hy with h | h <;> simp [h]
    | ins _ ih =>
      refine .ins (ih (fun x hx y hy => hg x ?_ y ?_))
      · simp at hx ⊢; rcases hx with h | h <;> simp [h]
      · simp at hy ⊢; rcases hy with h | h <;> simp [h]
    | del _ ih =>
      refine .del (ih (fun x hx y hy => hg x ?_ y ?_))
      · simp at hx ⊢; rcases hx with h | h <;> simp [h]
      · simp at hy ⊢; rcases hy with h | h <;> simp [h]

theorem script_align {t r : List Nat} {p : List (Step Nat)} (h : Script t r p) (e : EditDistance) :
    ∃ s i d, Align (t.filter (· ≠ 0)) (r.filter (· ≠ 0)) s i d ∧
      countEdits p e = { e with substitutions := e.substitutions + s
                                insertions := e.insertions + i
                                deletions := e.deletions + d } := by
  induction h generalizing e with
  | nil => exact ⟨0, 0, 0, .nil, by simp [countEdits]⟩
  | epsT _ ih => simpa [countEdits] using ih e
  | epsR _ ih => simpa [countEdits] using ih e
  | @ins x _ _ _ hx _ ih =>
    obtain ⟨s, i, d, h1, h2⟩ := ih { e with insertions := e.insertions + 1 }
    refine ⟨s, i + 1, d, ?_, ?_⟩
    · simp only [hx, ne_eq, not_false_eq_true, decide_true, List.filter_cons_of_pos]; exact .ins h1
    · rw [countEdits]; simp only [hx, ne_eq, not_false_eq_true, if_true, if_false]; rw [h2]
      simp [Nat.add_comm, Nat.add_left_comm]
  | @del y _ _ _ hy _ ih =>
    obtain ⟨s, i, d, h1, h2⟩ := ih { e with deletions := e.deletions + 1 }
    refine ⟨s, i, d + 1, ?_, ?_⟩
    · simp only [hy, ne_eq, not_false_eq_true, decide_true, List.filter_cons_of_pos]; exact .del h1
    · rw [countEdits]; simp only [Ne.symm hy, ne_eq, not_false_eq_true, if_true]; rw [h2]
      simp [Nat.add_comm, Nat.add_left_comm]
  | @pair x y _ _ _ hx hy _ ih =>
    by_cases hxy : x = y
    · subst hxy
      obtain ⟨s, i, d, h1, h2⟩ := ih e
      refine ⟨s, i, d, ?_, ?_⟩
      · simp only [hx, ne_eq, not_false_eq_true, decide_true, List.filter_cons_of_pos]; exact .same h1
      · rw [countEdits]; simp only [ne_eq, not_true_eq_false, if_false]; rw [h2]
    · obtain ⟨s, i, d, h1, h2⟩ := ih { e with substitutions := e.substitutions + 1 }
      refine ⟨s + 1, i, d, ?_, ?_⟩
      · simp only [hx, hy, ne_eq, not_false_eq_true, decide_true, List.filter_cons_of_pos]
        exact .subst hxy h1
      · rw [countEdits]; simp only [hx, hy, hxy, ne_eq, not_false_eq_true, if_true, if_false]; rw [h2]
        simp [Nat.add_comm, Nat.add_left_comm]

theorem align_script (n : Nat) : ∀ {t r : List Nat} {s i d : Nat}, t.length + r.length ≤ n →
    Align (t.filter (· ≠ 0)) (r.filter (· ≠ 0)) s i d → ∃ p, Script t r p ∧ weight p = s + i + d := by
  induction n with
  | zero =>
    intro t r s i d hn h
    have ht : t = [] := List.length_eq_zero_iff.1 (by omega)
    have hr : r = [] := List.length_eq_zero_iff.1 (by omega)
    subst ht hr
    cases h
    exact ⟨[], .nil, rfl⟩
  | succ n ih =>
    intro t r s i d hn h
    match t, r with
    | 0 :: t, r =>
      obtain ⟨p, hp, hw⟩ := ih (t := t) (r := r) (by simp at hn; omega) (by simpa using h)
      exact ⟨_, .epsT hp, by simpa [weight] using hw⟩
    | t, 0 :: r =>
      obtain ⟨p, hp, hw⟩ := ih (t := t) (r := r) (by simp at hn; omega) (by simpa using h)
      exact ⟨_, .epsR hp, by simpa [weight] using hw⟩
    | [], [] => cases h; exact ⟨[], .nil, rfl⟩
    | (x + 1) :: t, [] =>
      simp at h
      cases h with
      | ins h =>
        obtain ⟨p, hp, hw⟩ := ih (t := t) (r := []) (by simp at hn; simp; omega) (by simpa using h)
        exact ⟨_, .ins (by omega) hp, by simp only [weight, List.map_cons, List.sum_cons] at hw ⊢; omega⟩
    | [], (y + 1) :: r =>
      simp at h
      cases h with
      | del h =>
        obtain ⟨p, hp, hw⟩ := ih (t := []) (r := r) (by simp at hn; simp; omega) (by simpa using h)
        exact ⟨_, .del (by omega) hp, by simp only [weight, List.map_cons, List.sum_cons] at hw ⊢; omega⟩
    | (x + 1) :: t, (y + 1) :: r =>
      simp only [ne_eq, Nat.add_eq_zero_iff, Nat.succ_ne_self, and_false, not_false_eq_true, decide_true,
        List.filter_cons_of_pos] at h
      simp only [List.length_cons] at hn
      cases h with
      | same h =>
        obtain ⟨p, hp, hw⟩ := ih (t := t) (r := r) (by omega) (by simpa using h)
        exact ⟨_, .pair (by omega) (by omega) hp, by
          simp only [weight, List.map_cons, List.sum_cons, if_true] at hw ⊢; omega⟩
      | subst hne h =>
        obtain ⟨p, hp, hw⟩ := ih (t := t) (r := r) (by omega) (by simpa using h)
        exact ⟨_, .pair (by omega) (by omega) hp, by
          simp only [weight, List.map_cons, List.sum_cons, hne, if_false] at hw ⊢; omega⟩
      | ins h =>
        obtain ⟨p, hp, hw⟩ := ih (t := t) (r := (y + 1) :: r) (by simp; omega) (by simpa using h)
        exact ⟨_, .ins (by omega) hp, by simp only [weight, List.map_cons, List.sum_cons] at hw ⊢; omega⟩
      | del h =>
        obtain ⟨p, hp, hw⟩ := ih (t := (x + 1) :: t) (r := r) (by simp; omega) (by simpa using h)
        exact ⟨_, .del (by omega) hp, by simp only [weight, List.map_cons, List.sum_cons] at hw ⊢; omega⟩

theorem align_all {α : Type} (t r : List α) : Align t r 0 t.length r.length := by
  induction t with
  | nil => induction r with
    | nil => exact .nil
    | cons y r ih => exact .del ih
  | cons x t ih => exact .ins ih

theorem exists_least (P : Nat → Prop) (h : ∃ n, P n) : ∃ n, P n ∧ ∀ m, P m → n ≤ m := by
  obtain ⟨n, hn⟩ := h
  induction n using Nat.strongRecOn with
  | _ n ih =>
    by_cases hm : ∃ m, m < n ∧ P m
    · obtain ⟨m, h1, h2⟩ := hm
      exact ih m h1 h2
    · exact ⟨n, hn, fun m hpm => Nat.le_of_not_lt fun h => hm ⟨m, h, hpm⟩⟩

/-- Labels and tokens correspond. -/
theorem labels_pair (ref test : List Str) :
    ∃ (lr lt : List Nat) (syms : SymTab), syms.Nodup ∧ syms[0]? = some epsilon ∧
      getStringFst ref [epsilon] = (⟨linFrom 0 lr, some 0, [lr.length]⟩, (labels ref [epsilon]).2) ∧
      getStringFst test (labels ref [epsilon]).2 = (⟨linFrom 0 lt, some 0, [lt.length]⟩, syms) ∧
      lr.length = ref.length ∧ lt.length = test.length ∧
      lr.map (fun s => syms[s]?) = ref.map some ∧ lt.map (fun s => syms[s]?) = test.map some := by
  obtain ⟨h1, h2, h3⟩ := labels_spec ref [epsilon] (by simp)
  obtain ⟨h4, h5, h6⟩ := labels_spec test _ h1
  refine ⟨(labels ref [epsilon]).1, (labels test (labels ref [epsilon]).2).1,
    (labels test (labels ref [epsilon]).2).2, h4, ?_, ?_, ?_, labels_length _ _, labels_length _ _, ?_, h6⟩
  · obtain ⟨u, hu⟩ := h2.trans h5
    rw [← hu]; simp
  · rw [getStringFst_eq, labels_length]
  · rw [getStringFst_eq, labels_length]
  · rw [← h3]
    apply List.map_congr_left
    intro s hs
    have : (labels ref [epsilon]).2[s]? ∈ ref.map some := by
      rw [← h3]; exact List.mem_map_of_mem hs
    simp only [List.mem_map] at this
    obtain ⟨w, _, hw⟩ := this
    have hlt := (List.getElem?_eq_some_iff.1 hw.symm).1
    obtain ⟨u, hu⟩ := h5
    rw [← hu, List.getElem?_append_left hlt]

theorem filter_labels {l : List Nat} {toks : List Str} {syms : SymTab} (hn : syms.Nodup)
    (h0 : syms[0]? = some epsilon) (h : l.map (fun s => syms[s]?) = toks.map some) :
    (l.filter (· ≠ 0)).map (fun s => syms[s]?) = (toks.filter (· ≠ epsilon)).map some := by
  induction l generalizing toks with
  | nil => cases toks <;> simp_all
  | cons x l ih =>
    cases toks with
    | nil => simp at h
    | cons t toks =>
      simp only [List.map_cons, List.cons.injEq] at h
      have ih := ih h.2
      have h00 := List.getElem?_eq_some_iff.1 h0
      have hx := List.getElem?_eq_some_iff.1 h.1
      have key : x = 0 ↔ t = epsilon := by
        constructor
        · rintro rfl; rw [h0] at h; simpa using h.1.symm
        · rintro rfl
          obtain ⟨hx1, hx2⟩ := hx
          obtain ⟨h01, h02⟩ := h00
          exact (List.getElem_inj hn).1 (hx2.trans h02.symm)
      by_cases hx0 : x = 0
      · have ht := key.1 hx0
        simpa [hx0, ht] using ih
      · have ht : t ≠ epsilon := fun h => hx0 (key.2 h)
        simp only [hx0, ht, ne_eq, not_false_eq_true, decide_true, List.filter_cons_of_pos, List.map_cons, h.1]
        simpa using ih

/-- What the tool computes, for every pair of token sequences: the counts of a least-cost alignment
of the sequences without the tokens spelled `<epsilon>`, which are skipped. -/
theorem C34_counts (ref test : List Str) :
    (∃ e, PairEditDistance ref test e) ∧
    ∀ e, PairEditDistance ref test e → e.referenceLength = ref.length ∧
      MinCounts (test.filter (· ≠ epsilon)) (ref.filter (· ≠ epsilon))
        e.substitutions e.insertions e.deletions := by
  obtain ⟨lr, lt, syms, hn, h0, hr, ht, hlr, hlt, hmr, hmt⟩ := labels_pair ref test
  have hbr : ∀ x ∈ lr, x < syms.length := by
    intro x hx
    have : syms[x]? ∈ ref.map some := by rw [← hmr]; exact List.mem_map_of_mem (f := fun s => syms[s]?) hx
    simp only [List.mem_map] at this
    obtain ⟨w, _, hw⟩ := this
    exact (List.getElem?_eq_some_iff.1 hw.symm).1
  have hbt : ∀ x ∈ lt, x < syms.length := by
    intro x hx
    have : syms[x]? ∈ test.map some := by rw [← hmt]; exact List.mem_map_of_mem (f := fun s => syms[s]?) hx
    simp only [List.mem_map] at this
    obtain ⟨w, _, hw⟩ := this
    exact (List.getElem?_eq_some_iff.1 hw.symm).1
  have htrans : ∀ s i d, Align (test.filter (· ≠ epsilon)) (ref.filter (· ≠ epsilon)) s i d ↔
      Align (lt.filter (· ≠ 0)) (lr.filter (· ≠ 0)) s i d := by
    intro s i d
    rw [← align_map some (by simp), ← filter_labels hn h0 hmt, ← filter_labels hn h0 hmr, align_map]
    intro x hx y hy hxy
    have hx' : x < syms.length := by
      simp only [List.mem_append, List.mem_filter] at hx
      rcases hx with h | h
      · exact hbt x h.1
      · exact hbr x h.1
    have hy' : y < syms.length := by
      simp only [List.mem_append, List.mem_filter] at hy
      rcases hy with h | h
      · exact hbt y h.1
      · exact hbr y h.1
    rw [List.getElem?_eq_getElem hx', List.getElem?_eq_getElem hy', Option.some.injEq] at hxy
    exact (List.getElem_inj hn).1 hxy
  have hped : ∀ e, PairEditDistance ref test e ↔
      ∃ p, (machOf syms.length lt lr).Shortest p ∧ e = countEdits p { referenceLength := ref.length } := by
    intro e
    unfold PairEditDistance MinErrorAlignment
    simp only [hr, ht]
    have : VFst.numStates (⟨linFrom 0 lr, some 0, [lr.length]⟩ : VFst Nat) - 1 = ref.length := by
      rw [← hlr]
      have : ∀ n (l : List Nat), (linFrom n l).length = l.length + 1 := by
        intro n l
        induction l generalizing n with
        | nil => rfl
        | cons x l ih => simp [linFrom, ih]
      simp [VFst.numStates, this]
    rw [this]
  have hsp : ∀ p, (machOf syms.length lt lr).Shortest p ↔
      Script lt lr p ∧ ∀ q, Script lt lr q → weight p ≤ weight q := by
    intro p
    unfold Mach.Shortest
    rw [accepts_iff hbt hbr]
    refine and_congr_right fun _ => forall_congr' fun q => ?_
    rw [accepts_iff hbt hbr]
  constructor
  · -- a least-cost path exists
    have hex : ∃ n, ∃ p, Script lt lr p ∧ weight p = n := by
      obtain ⟨p, hp, _⟩ := align_script _ (Nat.le_refl _) (align_all (lt.filter (· ≠ 0)) (lr.filter (· ≠ 0)))
      exact ⟨_, p, hp, rfl⟩
    obtain ⟨n, ⟨p, hp, hw⟩, hmin⟩ := exists_least _ hex
    refine ⟨_, (hped _).2 ⟨p, (hsp p).2 ⟨hp, fun q hq => ?_⟩, rfl⟩⟩
    rw [hw]
    exact hmin _ ⟨q, hq, rfl⟩
  · intro e he
    obtain ⟨p, hp, rfl⟩ := (hped _).1 he
    obtain ⟨hp1, hp2⟩ := (hsp p).1 hp
    obtain ⟨hw, hlen⟩ := script_weight hp1 { referenceLength := ref.length }
    refine ⟨hlen, ?_, ?_⟩
    · obtain ⟨s, i, d, h1, h2⟩ := script_align hp1 { referenceLength := ref.length }
      rw [h2, htrans]
      simpa using h1
    · intro s i d h
      rw [htrans] at h
      obtain ⟨q, hq, hqw⟩ := align_script _ (Nat.le_refl _) h
      have := hp2 q hq
      simp only [EditDistance.edits] at hw
      omega

/-- A token sequence without a token spelled `<epsilon>`: the reported counts come from one
alignment of the two sequences and their sum is the least possible.  Missing from the full claim:
token sequences that contain the token `<epsilon>`, for which `C34_epsilon_token` shows it false. -/
theorem C34_min_alignment_partial (ref test : List Str) (hr : epsilon ∉ ref) (ht : epsilon ∉ test)
    (e : EditDistance) (h : PairEditDistance ref test e) :
    e.referenceLength = ref.length ∧
    MinCounts test ref e.substitutions e.insertions e.deletions := by
  have hf : ∀ l : List Str, epsilon ∉ l → l.filter (· ≠ epsilon) = l := by
    intro l hl
    rw [List.filter_eq_self]
    intro x hx
    have : x ≠ epsilon := fun h => hl (h ▸ hx)
    simpa using this
  have := (C34_counts ref test).2 e h
  rwa [hf ref hr, hf test ht] at this

/-- In character mode no token is spelled `<epsilon>`, so the counts are always those of a least-cost
alignment. -/
theorem C34_char_mode (a b : Str) (ref test : List Str) (ha : maybeSplitChars a true = .ok ref)
    (hb : maybeSplitChars b true = .ok test) (e : EditDistance) (h : PairEditDistance ref test e) :
    e.referenceLength = ref.length ∧
    MinCounts test ref e.substitutions e.insertions e.deletions := by
  have key : ∀ (a : Str) (l : List Str), maybeSplitChars a true = .ok l → epsilon ∉ l := by
    intro a l h
    unfold maybeSplitChars at h
    split at h
    · cases h
    · simp only [if_true, Except.ok.injEq] at h
      subst h
      intro hm
      have hlen : ∀ c, (encodeRaw c).length ≤ 4 := by
        intro c; unfold encodeRaw; split <;> (try split) <;> (try split) <;> simp
      unfold strSplitByChar at hm
      split at hm
      · simp at hm
      · split at hm
        · simp at hm
        · obtain ⟨c, _, hc⟩ := List.mem_map.1 hm
          have := hlen c
          rw [hc] at this
          simp [epsilon] at this
  exact C34_min_alignment_partial ref test (key a ref ha) (key b test hb) e h

/-- The full claim fails on the token `<epsilon>`: the reference `<epsilon>` against an empty
hypothesis has no edits according to the tool although one token is missing. -/
theorem C34_epsilon_token :
    ∃ (ref test : List Str) (e : EditDistance), PairEditDistance ref test e ∧
      ¬ Align test ref e.substitutions e.insertions e.deletions := by
  obtain ⟨⟨e, he⟩, h⟩ := C34_counts [epsilon] []
  refine ⟨[epsilon], [], e, he, ?_⟩
  have h1 := ((h e he).2.1)
  have : [epsilon].filter (· ≠ epsilon) = ([] : List Str) := by decide
  rw [this, List.filter_nil] at h1
  generalize e.substitutions = s at *
  generalize e.insertions = i at *
  generalize e.deletions = d at *
  cases h1
  intro h2
  cases h2

theorem align_length {α : Type} {t r : List α} {s i d : Nat} (h : Align t r s i d) :
    t.length + d = r.length + i := by
  induction h <;> simp <;> omega

/-- One missing token out of three. -/
example : ∃ e, PairEditDistance [[97], [98], [99]] [[97], [99]] e ∧ e.edits = 1 ∧
    e.referenceLength = 3 := by
  obtain ⟨⟨e, he⟩, _⟩ := C34_counts [[97], [98], [99]] [[97], [99]]
  obtain ⟨h1, h2, h3⟩ := C34_min_alignment_partial _ _ (by decide) (by decide) e he
  have hle := h3 0 0 1 (.same (.del (.same .nil)))
  have hlen := align_length h2
  simp at hlen
  exact ⟨e, he, by simp only [EditDistance.edits]; omega, h1⟩

/-! ## C35 -/

/-- The token sequence of a candidate: empty for the empty string, otherwise its string split. -/
def Tokens {κ : Type} (syms : SymTab) (split : Bool) (c : Cand κ) (toks : List Str) : Prop :=
  (c.1 = 0 ∧ toks = []) ∨
  (c.1 ≠ 0 ∧ ∃ s, syms[c.1]? = some s ∧ maybeSplitChars s split = .ok toks)

/-- `ped` is an implementation of `CalculatePairEditDistance`. -/
def Implements (ped : List Str → List Str → EditDistance) : Prop := ∀ r t, PairEditDistance r t (ped r t)

/-- The hypotheses scored for an example: those given, or the empty string. -/
def scored {κ : Type} [Zero κ] : List (Cand κ) → List (Cand κ)
  | [] => [(0, 0)]
  | c :: cs => c :: cs

/-- `m` holds the edit counts of hypotheses `hyps` against references `refs`. -/
def EditMatrix {κ : Type} (ped : List Str → List Str → EditDistance) (syms : SymTab) (split : Bool)
    (hyps refs : List (Cand κ)) (m : List (List Nat)) : Prop :=
  m.length = hyps.length ∧ (∀ row ∈ m, row.length = refs.length) ∧
  ∀ (i j : Nat) (h r : Cand κ), hyps[i]? = some h → refs[j]? = some r →
    ∃ row tt tr, m[i]? = some row ∧ Tokens syms split h tt ∧ Tokens syms split r tr ∧
      row[j]? = some (ped tr tt).edits

theorem mapM_ok {α β ε : Type} {f : α → Except ε β} {l : List α} {ys : List β}
    (h : l.mapM f = .ok ys) :
    ys.length = l.length ∧ ∀ (i : Nat) (x : α), l[i]? = some x → ∃ y, ys[i]? = some y ∧ f x = .ok y := by
  induction l generalizing ys with
  | nil => simp [pure, Except.pure] at h; subst h; simp
  | cons a l ih =>
    rw [List.mapM_cons] at h
    cases ha : f a with
    | error e => rw [ha] at h; cases h
    | ok b =>
      rw [ha] at h
      cases hl : l.mapM f with
      | error e => rw [hl] at h; cases h
      | ok bs =>
        rw [hl] at h
        have : b :: bs = ys := by simpa [bind, Except.bind, pure, Except.pure] using h
        subst this
        obtain ⟨h1, h2⟩ := ih hl
        refine ⟨by simp [h1], ?_⟩
        intro i x hx
        cases i with
        | zero => simp at hx; subst hx; exact ⟨b, rfl, ha⟩
        | succ i => simpa using h2 i x (by simpa using hx)

theorem tokenized_spec {κ : Type} {syms : SymTab} {split : Bool} {inputs : List (List (Cand κ))}
    {idx k : Nat} {cands : List (Cand κ)} {c : Cand κ} {toks : List Str}
    (h1 : inputs[idx]? = some cands) (h2 : cands[k]? = some c)
    (h : tokenized syms split inputs idx k = .ok toks) : Tokens syms split c toks := by
  unfold tokenized at h
  rw [h1] at h
  simp only [h2] at h
  obtain ⟨sym, v⟩ := c
  simp only at h
  split at h
  · next h0 => exact .inl ⟨h0, by simpa using h.symm⟩
  · next h0 =>
    cases hs : syms[sym]? with
    | none => rw [hs] at h; cases h
    | some s => rw [hs] at h; exact .inr ⟨h0, s, hs, h⟩

theorem all_tokens {κ : Type} {syms : SymTab} {split : Bool} {inputs : List (List (Cand κ))}
    {idx : Nat} {cands : List (Cand κ)} {ts : List (List Str)}
    (h1 : inputs[idx]? = some cands)
    (h : (List.range cands.length).mapM (tokenized syms split inputs idx) = .ok ts) :
    ts.length = cands.length ∧
    ∀ (i : Nat) (c : Cand κ), cands[i]? = some c → ∃ t, ts[i]? = some t ∧ Tokens syms split c t := by
  obtain ⟨h2, h3⟩ := mapM_ok h
  refine ⟨by simpa using h2, ?_⟩
  intro i c hc
  have hi := (List.getElem?_eq_some_iff.1 hc).1
  obtain ⟨t, ht, ht2⟩ := h3 i i (by simp [hi])
  exact ⟨t, ht, tokenized_spec h1 hc ht2⟩

theorem pairwise_spec {κ : Type} {ped : List Str → List Str → EditDistance} {st st' : State κ} {idx : Nat}
    {hyps refs : List (Cand κ)} (hh : st.testInput[idx]? = some hyps)
    (hr : st.references[idx]? = some refs) (h : calculatePairwiseErrors ped st idx = .ok st') :
    ∃ m, EditMatrix ped st.outputSyms st.isSplitChars hyps refs m ∧
      st' = { st with pairwiseEdits := st.pairwiseEdits ++ [m] } := by
  unfold calculatePairwiseErrors at h
  simp only [hh, hr] at h
  split at h
  · cases h
  · next ts hts =>
    split at h
    · cases h
    · next rs hrs =>
      obtain ⟨a1, a2⟩ := all_tokens hh hts
      obtain ⟨b1, b2⟩ := all_tokens hr hrs
      refine ⟨_, ⟨?_, ?_, ?_⟩, (Except.ok.inj h).symm⟩
      · simp [a1]
      · intro row hrow
        obtain ⟨t, _, rfl⟩ := List.mem_map.1 hrow
        simp [b1]
      · intro i j x y hx hy
        obtain ⟨t, ht, ht2⟩ := a2 i x hx
        obtain ⟨r, hr1, hr2⟩ := b2 j y hy
        exact ⟨_, t, r, by simp [ht]; rfl, ht2, hr2, by simp [hr1]⟩

variable {κ : Type} [Zero κ]

/-- State after the examples before `k`: nothing changed but the results and the default
hypotheses. -/
def Frame (st st' : State κ) (k : Nat) : Prop :=
  st'.outputSyms = st.outputSyms ∧ st'.references = st.references ∧
  st'.isSplitChars = st.isSplitChars ∧
  ∀ i, st'.testInput[i]? = if i < k then st.testInput[i]?.map scored else st.testInput[i]?

theorem step_frame {lt : κ → κ → Bool} {ped : List Str → List Str → EditDistance} {pw : Bool}
    {st st1 st2 : State κ} {k : Nat} (hf : Frame st st1 k)
    (h : calculateStep lt ped pw st1 k = .ok st2) :
    ∃ hyps refs, st.testInput[k]? = some hyps ∧ st.references[k]? = some refs ∧
      (refs = [] → hyps = []) ∧
      ∃ st1', Frame st st1' (k + 1) ∧ st1'.totals = st1.totals ∧ st1'.pairwiseEdits = st1.pairwiseEdits ∧
        st1'.testInput[k]? = some (scored hyps) ∧ st1'.references[k]? = some refs ∧
        calculateOne lt ped pw st1' k = .ok st2 := by
  obtain ⟨f1, f2, f3, f4⟩ := hf
  unfold calculateStep at h
  have hk := f4 k
  simp only [Nat.lt_irrefl, if_false] at hk
  cases hh : st.testInput[k]? with
  | none => rw [hk, hh] at h; cases h
  | some hyps =>
    cases hr : st.references[k]? with
    | none => rw [hk, f2, hh, hr] at h; cases h
    | some refs =>
      simp only [hk, f2, hh, hr] at h
      refine ⟨hyps, refs, rfl, rfl, ?_⟩
      split at h
      · cases h
      · next hc =>
        refine ⟨?_, ?_⟩
        · rintro rfl
          simpa using hc
        · have hlt : k < st1.testInput.length := (List.getElem?_eq_some_iff.1 (hk.trans hh)).1
          cases hyps with
          | nil =>
            simp only [List.isEmpty_nil, if_true] at h
            refine ⟨{ st1 with references := st.references, testInput := st1.testInput.set k [(0, 0)] }, ⟨f1, rfl, f3, ?_⟩, rfl, rfl, ?_, hr, h⟩
            · intro i
              simp only [List.getElem?_set]
              by_cases hik : k = i
              · subst hik; simp [hlt, hh, scored]
              · simp only [hik, if_false, f4 i]
                have : i < k ↔ i < k + 1 := by omega
                simp only [this]
            · simp [hlt, scored]
          | cons c cs =>
            simp only [List.isEmpty_cons, Bool.false_eq_true, if_false] at h
            refine ⟨_, ⟨f1, f2, f3, ?_⟩, rfl, rfl, ?_, f2 ▸ hr, h⟩
            · intro i
              by_cases hik : k = i
              · subst hik; simp [hk, hh, scored]
              · simp only [f4 i]
                have : i < k ↔ i < k + 1 := by omega
                simp only [this]
            · simp [hk, hh, scored]

/-- Results pushed for the examples before `k`, in order; examples without references push
nothing. -/
inductive Results (ped : List Str → List Str → EditDistance) (st : State κ) :
    Nat → List (List (List Nat)) → Prop
  | zero : Results ped st 0 []
  | skip {k ms} : Results ped st k ms → st.references[k]? = some [] → Results ped st (k + 1) ms
  | push {k ms m hyps refs} : Results ped st k ms → st.testInput[k]? = some hyps →
      st.references[k]? = some refs → refs ≠ [] →
      EditMatrix ped st.outputSyms st.isSplitChars (scored hyps) refs m →
      Results ped st (k + 1) (ms ++ [m])

theorem run_results {lt : κ → κ → Bool} {ped : List Str → List Str → EditDistance}
    {st : State κ} (n : Nat) : ∀ (k : Nat) (st1 st2 : State κ), Frame st st1 k →
      Results ped st k st1.pairwiseEdits →
      (List.range' k n).foldlM (calculateStep lt ped true) st1 = .ok st2 →
      Frame st st2 (k + n) ∧ Results ped st (k + n) st2.pairwiseEdits := by
  induction n with
  | zero =>
    intro k st1 st2 hf hr h
    have : st1 = st2 := by simpa [pure, Except.pure] using h
    subst this; exact ⟨hf, hr⟩
  | succ n ih =>
    intro k st1 st2 hf hr h
    rw [List.range'_succ, List.foldlM_cons] at h
    cases hs : calculateStep lt ped true st1 k with
    | error e => rw [hs] at h; cases h
    | ok st3 =>
      rw [hs] at h
      obtain ⟨hyps, refs, h1, h2, h3, st1', hf', _, hp, h5, h6, h7⟩ := step_frame hf hs
      have hpost : Frame st st3 (k + 1) ∧ Results ped st (k + 1) st3.pairwiseEdits := by
        unfold calculateOne at h7
        rw [h6] at h7
        cases refs with
        | nil =>
          have : st1' = st3 := by simpa using h7
          subst this
          exact ⟨hf', hp ▸ .skip hr h2⟩
        | cons r rs =>
          simp only [if_true] at h7
          obtain ⟨m, hm, rfl⟩ := pairwise_spec h5 h6 h7
          refine ⟨hf', ?_⟩
          simp only [hp]
          rw [hf'.1, hf'.2.2.1] at hm
          exact .push hr h1 h2 (by simp) hm
      have := ih (k + 1) st3 st2 hpost.1 hpost.2 h
      have e : k + 1 + n = k + (n + 1) := by omega
      rwa [e] at this

theorem results_of_run {lt : κ → κ → Bool} {ped : List Str → List Str → EditDistance}
    {st st' : State κ} (h : calculateErrorRate lt ped true st = .ok st') :
    st.references.length = st.testInput.length ∧
    Frame st st' st.references.length ∧ Results ped st st.references.length st'.pairwiseEdits := by
  unfold calculateErrorRate at h
  split at h
  · cases h
  · next hl =>
    refine ⟨by simpa using hl, ?_⟩
    simp only [if_true] at h
    have := run_results (st := st) st.references.length 0 { st with pairwiseEdits := [] } st'
      ⟨rfl, rfl, rfl, by simp⟩ .zero (by rw [← List.range_eq_range']; exact h)
    simpa using this

omit [Zero κ] in
theorem results_length [Zero κ] {ped : List Str → List Str → EditDistance} {st : State κ} {k : Nat}
    {ms : List (List (List Nat))} (h : Results ped st k ms) :
    ms.length ≤ k ∧ ((∃ i < k, st.references[i]? = some []) → ms.length < k) ∧
    ((∀ i < k, st.references[i]? ≠ some []) → ms.length = k ∧ ∀ i < k, ∃ hyps refs m, ms[i]? = some m ∧
      st.testInput[i]? = some hyps ∧ st.references[i]? = some refs ∧
      EditMatrix ped st.outputSyms st.isSplitChars (scored hyps) refs m) := by
  induction h with
  | zero => simp
  | @skip k ms _ h1 ih =>
    exact ⟨by omega, fun _ => by omega, fun hne => absurd h1 (hne k (by omega))⟩
  | @push k ms m hyps refs _ h1 h2 h3 h4 ih =>
    refine ⟨by simp; exact ih.1, ?_, ?_⟩
    · rintro ⟨i, hi, he⟩
      have hik : i ≠ k := by
        rintro rfl
        rw [h2] at he
        exact h3 (by simpa using he)
      have := ih.2.1 ⟨i, by omega, he⟩
      simp; omega
    · intro hne
      obtain ⟨hlen, hall⟩ := ih.2.2 (fun j hj => hne j (by omega))
      refine ⟨by simp [hlen], ?_⟩
      intro i hi
      by_cases hik : i = k
      · subst hik
        exact ⟨hyps, refs, m, by rw [List.getElem?_append_right (by omega)]; simp [hlen], h1, h2, h4⟩
      · obtain ⟨a, b, c, e1, e2⟩ := hall i (by omega)
        exact ⟨a, b, c, by rw [List.getElem?_append_left (by omega)]; exact e1, e2⟩

/-! ## C40 -/

/-- A row of numbers as a JSON array. -/
def jsonRow (row : List Nat) : Str := [91] ++ [44, 32].intercalate (row.map decimal) ++ [93]

/-- Entry of a matrix. -/
def entry (m : List (List Nat)) (i j : Nat) : Option Nat := m[i]?.bind (·[j]?)

theorem strJoin_eq (sep : Str) (l : List Str) : strJoin sep l = sep.intercalate l := by
  induction l with
  | nil => simp [strJoin]
  | cons x l ih => cases l with
    | nil => simp [strJoin]
    | cons y l => rw [strJoin, ih]; simp [List.intercalate, List.intersperse]

theorem intercalate_append {sep : Str} {a b : List Str} (ha : a ≠ []) (hb : b ≠ []) :
    sep.intercalate (a ++ b) = sep.intercalate a ++ sep ++ sep.intercalate b := by
  induction a with
  | nil => exact absurd rfl ha
  | cons x a ih =>
    cases a with
    | nil => cases b with
      | nil => exact absurd rfl hb
      | cons y b => simp [List.intercalate, List.intersperse]
    | cons z a =>
      have := ih (by simp)
      simp only [List.cons_append, List.intercalate, List.intersperse] at this ⊢
      simp at this ⊢
      simpa using this

theorem bracketed_eq {a b : List Nat} (ha : a ≠ []) (hb : b ≠ []) : bracketed a b = jsonRow (a ++ b) := by
  unfold bracketed jsonRow
  rw [List.map_append, intercalate_append (by simpa using ha) (by simpa using hb)]
  simp [strJoin, strJoin_eq]

theorem mapM_some {α β : Type} {f : α → Option β} {g : α → β} {l : List α}
    (h : ∀ x ∈ l, f x = some (g x)) : l.mapM f = some (l.map g) := by
  induction l with
  | nil => rfl
  | cons a l ih =>
    rw [List.mapM_cons, h a (by simp), ih (fun x hx => h x (by simp [hx]))]
    rfl

theorem transpose_eq {c : Nat} {m : List (List Nat)} (hm : m ≠ []) (hrow : ∀ row ∈ m, row.length = c) :
    transposeMatrix m = some ((List.range c).map (fun i => m.map (fun r => r.getD i 0))) := by
  cases m with
  | nil => exact absurd rfl hm
  | cons row m =>
    rw [transposeMatrix, hrow row (by simp)]
    apply mapM_some
    intro i hi
    apply mapM_some
    intro r hr
    have : i < r.length := by rw [hrow r hr]; simpa using hi
    simp [this]

/-- C40: the distance matrix written for a non-empty rectangular table of edit counts (one row per
hypothesis, one column per reference) is square, symmetric, zero within the hypotheses and within
the references, and holds the edit counts elsewhere. -/
theorem C40_matrix (dists : List (List Nat)) (c : Nat) (hd : dists ≠ []) (hc : 0 < c)
    (hrow : ∀ row ∈ dists, row.length = c) :
    ∃ M : List (List Nat),
      getDistances dists = some ([44, 32].intercalate (M.map jsonRow)) ∧
      M.length = dists.length + c ∧ (∀ row ∈ M, row.length = dists.length + c) ∧
      (∀ i j, i < dists.length → j < dists.length → entry M i j = some 0) ∧
      (∀ i j, i < c → j < c → entry M (dists.length + i) (dists.length + j) = some 0) ∧
      (∀ i j, i < dists.length → j < c → entry M i (dists.length + j) = entry dists i j ∧
        entry M (dists.length + j) i = entry dists i j ∧ (entry dists i j).isSome) ∧
      (∀ i j, i < dists.length + c → j < dists.length + c → entry M i j = entry M j i) := by
  let r := dists.length
  let M := dists.map (fun d => List.replicate r 0 ++ d) ++
    (List.range c).map (fun i => dists.map (fun d => d.getD i 0) ++ List.replicate c 0)
  have hr : 0 < r := List.length_pos_iff.2 hd
  have hlen : M.length = r + c := by simp [M, r]
  have hrows : ∀ row ∈ M, row.length = r + c := by
    intro row h
    simp only [M, List.mem_append, List.mem_map] at h
    rcases h with ⟨d, hd', rfl⟩ | ⟨i, _, rfl⟩
    · simp [hrow d hd']
    · simp [r]
  have top : ∀ i, i < r → ∃ d, dists[i]? = some d ∧ d.length = c ∧ M[i]? = some (List.replicate r 0 ++ d) := by
    intro i hi
    refine ⟨dists[i], List.getElem?_eq_getElem hi, hrow _ (List.getElem_mem hi), ?_⟩
    simp only [M]
    rw [List.getElem?_append_left (by simpa using hi)]
    simp [List.getElem?_eq_getElem hi]
  have bot : ∀ i, i < c → M[r + i]? = some (dists.map (fun d => d.getD i 0) ++ List.replicate c 0) := by
    intro i hi
    simp only [M]
    rw [List.getElem?_append_right (by simp [r])]
    simp [r, hi]
  have e1 : ∀ i j, i < r → j < r → entry M i j = some 0 := by
    intro i j hi hj
    obtain ⟨d, _, _, h⟩ := top i hi
    simp only [entry, h, Option.bind_some]
    rw [List.getElem?_append_left (by simpa using hj)]
    simp [hj]
  have e2 : ∀ i j, i < c → j < c → entry M (r + i) (r + j) = some 0 := by
    intro i j hi hj
    simp only [entry, bot i hi, Option.bind_some]
    rw [List.getElem?_append_right (by simp [r])]
    simp [r, hj]
  have e3 : ∀ i j, i < r → j < c → entry M i (r + j) = entry dists i j ∧
      entry M (r + j) i = entry dists i j ∧ (entry dists i j).isSome := by
    intro i j hi hj
    obtain ⟨d, h1, h2, h⟩ := top i hi
    refine ⟨?_, ?_, ?_⟩
    · simp only [entry, h, h1, Option.bind_some]
      rw [List.getElem?_append_right (by simp)]
      simp
    · simp only [entry, bot j hj, h1, Option.bind_some]
      rw [List.getElem?_append_left (by simpa using hi)]
      simp [h1, h2, hj]
    · simp [entry, h1, h2, hj]
  refine ⟨M, ?_, hlen, hrows, e1, e2, e3, ?_⟩
  · have ht := transpose_eq hd hrow
    unfold getDistances
    cases dists with
    | nil => exact absurd rfl hd
    | cons row rest =>
      simp only [ht]
      rw [strJoin_eq]
      congr 2
      simp only [M, List.map_append, List.map_map]
      congr 1
      · apply List.map_congr_left
        intro d hd'
        have : d ≠ [] := by
          intro h; have := hrow d hd'; simp [h] at this; omega
        rw [Function.comp_apply, ← bracketed_eq _ this]
        simp [r]
      · apply List.map_congr_left
        intro i hi
        rw [Function.comp_apply, Function.comp_apply, ← bracketed_eq]
        · simp [hrow row (by simp)]
        · simp
        · simp; omega
  · intro i j hi hj
    by_cases h1 : i < r <;> by_cases h2 : j < r
    · rw [e1 i j h1 h2, e1 j i h2 h1]
    · have := e3 i (j - r) h1 (by omega)
      rw [show r + (j - r) = j from by omega] at this
      rw [this.1, this.2.1]
    · have := e3 j (i - r) h2 (by omega)
      rw [show r + (i - r) = i from by omega] at this
      rw [this.1, this.2.1]
    · have a := e2 (i - r) (j - r) (by omega) (by omega)
      have b := e2 (j - r) (i - r) (by omega) (by omega)
      rw [show r + (i - r) = i from by omega, show r + (j - r) = j from by omega] at a b
      rw [a, b]

/-- Two hypotheses, one reference. -/
example : getDistances [[1], [12]] =
    some ("[0, 0, 1], [0, 0, 12], [1, 12, 0]".toList.map Char.toNat) := by decide

/-! ## C35, continued -/

/-- What the line for an example must hold: the candidates of the example and its edit counts. -/
def LineFor (ped : List Str → List Str → EditDistance) (st : State κ) (idx : Nat) (l : Line κ) : Prop :=
  ∃ hyps refs m, st.testInput[idx]? = some hyps ∧ st.references[idx]? = some refs ∧
    EditMatrix ped st.outputSyms st.isSplitChars (scored hyps) refs m ∧
    l.hyp = scored hyps ∧ l.ref = refs ∧ getDistances m = some l.dist

theorem writeLoop_ok {ped : List Str → List Str → EditDistance} {st st' : State κ}
    (hf : Frame st st' st.references.length)
    (hall : ∀ i < st.references.length, ∃ hyps refs m, st'.pairwiseEdits[i]? = some m ∧
      st.testInput[i]? = some hyps ∧ st.references[i]? = some refs ∧ refs ≠ [] ∧
      EditMatrix ped st.outputSyms st.isSplitChars (scored hyps) refs m)
    (idxs : List Nat) (hi : ∀ i ∈ idxs, i < st.references.length) :
    (writeLoop st' idxs).2 = none ∧ (writeLoop st' idxs).1.length = idxs.length ∧
    ∀ (k i : Nat) (l : Line κ), idxs[k]? = some i → (writeLoop st' idxs).1[k]? = some l →
      LineFor ped st i l := by
  induction idxs with
  | nil => exact ⟨rfl, rfl, by simp⟩
  | cons i idxs ih =>
    obtain ⟨ih1, ih2, ih3⟩ := ih (fun j hj => hi j (by simp [hj]))
    have hlt := hi i (by simp)
    obtain ⟨hyps, refs, m, h1, h2, h3, h4, h5⟩ := hall i hlt
    have ht : st'.testInput[i]? = some (scored hyps) := by rw [hf.2.2.2 i, if_pos hlt, h2]; rfl
    have hr : st'.references[i]? = some refs := by rw [hf.2.1, h3]
    have hm : m ≠ [] := by
      have := h5.1
      intro h
      rw [h] at this
      cases hyps <;> simp [scored] at this
    obtain ⟨M, hM, _⟩ := C40_matrix m refs.length hm (List.length_pos_iff.2 h4) h5.2.1
    simp only [writeLoop, ht, hr, h1, hM]
    refine ⟨ih1, by simp [ih2], ?_⟩
    intro k i' l hk hl
    cases k with
    | zero =>
      simp only [List.getElem?_cons_zero, Option.some.injEq] at hk hl
      subst hk hl
      exact ⟨hyps, refs, m, h2, h3, h5, rfl, rfl, hM⟩
    | succ k => exact ih3 k i' l (by simpa using hk) (by simpa using hl)

/-- C35 when every example has a reference: one line per example, in order, each holding the
candidates of its own example and the edit counts between exactly those.  Missing from the full
claim: examples without references, for which `C35_missing_reference` shows it false. -/
theorem C35_lines_partial {lt : κ → κ → Bool} {ped : List Str → List Str → EditDistance}
    {st st' : State κ} (hne : ∀ refs ∈ st.references, refs ≠ [])
    (h : calculateErrorRate lt ped true st = .ok st') :
    (writePairwiseEdits st').2 = none ∧
    (writePairwiseEdits st').1.length = st.references.length ∧
    ∀ (i : Nat) (l : Line κ), (writePairwiseEdits st').1[i]? = some l → LineFor ped st i l := by
  obtain ⟨_, hf, hr⟩ := results_of_run h
  obtain ⟨_, _, h3⟩ := results_length hr
  have hne' : ∀ i < st.references.length, st.references[i]? ≠ some [] := by
    intro i hi he
    exact hne [] (List.mem_of_getElem? he) rfl
  obtain ⟨hl, hall⟩ := h3 hne'
  unfold writePairwiseEdits
  rw [hf.2.1]
  obtain ⟨a1, a2, a3⟩ := writeLoop_ok hf (ped := ped) (fun i hi => by
    obtain ⟨a, b, m, h1, h2, h3, h4⟩ := hall i hi
    exact ⟨a, b, m, h1, h2, h3, hne b (List.mem_of_getElem? h3), h4⟩)
    (List.range st.references.length) (by simp)
  refine ⟨a1, by simpa using a2, ?_⟩
  intro i l hl
  have hi := (List.getElem?_eq_some_iff.1 hl).1
  rw [a2] at hi
  exact a3 i i l (List.getElem?_range (by simpa using hi)) hl

omit [Zero κ] in
theorem writeLoop_err {st : State κ} {idxs : List Nat} {i : Nat} (hi : i ∈ idxs)
    (h : st.pairwiseEdits[i]? = none) : (writeLoop st idxs).2 = some .outOfRange := by
  induction idxs with
  | nil => simp at hi
  | cons j idxs ih =>
    by_cases hij : i = j
    · subst hij
      simp only [writeLoop, h]
      split <;> simp_all
    · have := ih (by simpa [hij] using hi)
      rw [writeLoop]
      split
      · split
        · exact this
        · rfl
      · rfl

/-- Whenever some example has no reference, which the tool means to allow, writing the pairwise
edits reads past the end of the result vector. -/
theorem C35_missing_reference {lt : κ → κ → Bool} {ped : List Str → List Str → EditDistance}
    {st st' : State κ} (hne : [] ∈ st.references)
    (h : calculateErrorRate lt ped true st = .ok st') :
    (writePairwiseEdits st').2 = some .outOfRange := by
  obtain ⟨_, hf, hr⟩ := results_of_run h
  obtain ⟨_, h2, _⟩ := results_length hr
  obtain ⟨i, hi⟩ := List.mem_iff_getElem?.1 hne
  have hlt := (List.getElem?_eq_some_iff.1 hi).1
  have := h2 ⟨i, hlt, hi⟩
  unfold writePairwiseEdits
  rw [hf.2.1]
  refine writeLoop_err (i := st'.pairwiseEdits.length) (by simpa using this) (by simp)

/-- Files with lines for example 1 only: example 0 has neither references nor hypotheses, the scan
succeeds, and the line written for example 0 carries the distance of example 1. -/
theorem C35_shifted (ped : List Str → List Str → EditDistance) :
    let st := readBoth [(1, [97], (0 : Nat))] [(1, [98], 0)] true
    [] ∈ st.references ∧
    ∃ st', calculateErrorRate (fun a b => decide (a < b)) ped true st = .ok st' ∧
      ∃ l rest, (writePairwiseEdits st').1 = l :: rest ∧ l.ref = [] ∧
        getDistances [[(ped [[97]] [[98]]).edits]] = some l.dist := by
  refine ⟨by decide, _, rfl, _, _, rfl, rfl, rfl⟩

/-- Two examples with one reference each. -/
example (ped : List Str → List Str → EditDistance) :
    let st := readBoth [(0, [97], (0 : Nat)), (1, [98], 0)] [(1, [98], 0)] false
    (∀ refs ∈ st.references, refs ≠ []) ∧
    ∃ st', calculateErrorRate (fun a b => decide (a < b)) ped true st = .ok st' ∧ (writePairwiseEdits st').1.length = 2 := by
  refine ⟨by decide, _, rfl, rfl⟩

/-! ## C50 -/

/-- `k` is the first candidate of least cost. -/
def FirstCheapest {κ : Type} (lt : κ → κ → Bool) (cands : List (Cand κ)) (k : Nat) : Prop :=
  ∃ c, cands[k]? = some c ∧ (∀ x ∈ cands, lt x.2 c.2 = false) ∧
    ∀ (i : Nat) (x : Cand κ), i < k → cands[i]? = some x → lt c.2 x.2 = true

/-- Costs compare as numbers do: `<` is a strict weak order. -/
structure StrictWeak {κ : Type} (lt : κ → κ → Bool) : Prop where
  irrefl : ∀ a, lt a a = false
  trans : ∀ a b c, lt a b = true → lt b c = true → lt a c = true
  ntrans : ∀ a b c, lt a b = false → lt b c = false → lt a c = false

omit [Zero κ] in
theorem minCostIndex_spec {lt : κ → κ → Bool} (hlt : StrictWeak lt) (cands : List (Cand κ))
    (hne : cands ≠ []) : FirstCheapest lt cands (minCostIndex lt cands) := by
  have key : ∀ (n k best : Nat), k + n = cands.length →
      (∃ c, cands[best]? = some c ∧ best < k ∧
        (∀ (i : Nat) (x : Cand κ), i < k → cands[i]? = some x → lt x.2 c.2 = false) ∧
        ∀ (i : Nat) (x : Cand κ), i < best → cands[i]? = some x → lt c.2 x.2 = true) →
      FirstCheapest lt cands ((List.range' k n).foldl (fun best i =>
        match cands[i]?, cands[best]? with
        | some x, some y => if lt x.2 y.2 then i else best
        | _, _ => best) best) := by
    intro n
    induction n with
    | zero =>
      rintro k best hk ⟨c, h1, h2, h3, h4⟩
      refine ⟨c, h1, ?_, h4⟩
      intro x hx
      obtain ⟨i, hi⟩ := List.mem_iff_getElem?.1 hx
      have := (List.getElem?_eq_some_iff.1 hi).1
      exact h3 i x (by omega) hi
    | succ n ih =>
      rintro k best hk ⟨c, h1, h2, h3, h4⟩
      rw [List.range'_succ, List.foldl_cons]
      apply ih (k + 1) _ (by omega)
      have hkl : k < cands.length := by omega
      have hck : cands[k]? = some cands[k] := List.getElem?_eq_getElem hkl
      simp only [hck, h1]
      cases hl : lt cands[k].2 c.2 with
      | true =>
        simp only [if_true]
        refine ⟨cands[k], hck, by omega, ?_, ?_⟩
        · intro i x hi hx
          by_cases hik : i = k
          · subst hik
            rw [hck] at hx
            have : cands[i] = x := by simpa using hx
            rw [this]; exact hlt.irrefl _
          · have := h3 i x (by omega) hx
            cases hq : lt x.2 cands[k].2 with
            | false => rfl
            | true => rw [hlt.trans _ _ _ hq hl] at this; cases this
        · intro i x hi hx
          have := h3 i x hi hx
          cases hq : lt cands[k].2 x.2 with
          | true => rfl
          | false => rw [hlt.ntrans _ _ _ hq this] at hl; cases hl
      | false =>
        simp only [Bool.false_eq_true, if_false]
        refine ⟨c, h1, by omega, ?_, h4⟩
        intro i x hi hx
        by_cases hik : i = k
        · subst hik
          rw [hck] at hx
          have : cands[i] = x := by simpa using hx
          rw [← this]; exact hl
        · exact h3 i x (by omega) hx
  have hpos := List.length_pos_iff.2 hne
  refine key (cands.length - 1) 1 0 (by omega) ⟨cands[0], List.getElem?_eq_getElem hpos, by omega, ?_, by simp⟩
  intro i x hi hx
  have : i = 0 := by omega
  subst this
  rw [List.getElem?_eq_getElem hpos] at hx
  have : cands[0] = x := by simpa using hx
  rw [this]; exact hlt.irrefl _

/-- `e` has the least error rate among `es` (compared without division). -/
def LeastRate (e : EditDistance) (es : List EditDistance) : Prop :=
  e ∈ es ∧ ∀ x ∈ es, e.edits * x.referenceLength ≤ x.edits * e.referenceLength

theorem better_iff {x y : EditDistance} (hx : 0 < x.referenceLength) (hy : 0 < y.referenceLength) :
    betterErrorValues x y = true ↔ x.edits * y.referenceLength < y.edits * x.referenceLength := by
  have h1 : x.referenceLength ≠ 0 := by omega
  have h2 : y.referenceLength ≠ 0 := by omega
  simp [betterErrorValues, EditDistance.errorRate, h1, h2, Rate.lt]

theorem rate_trans {a b c la lb lc : Nat} (hb : 0 < lb) (h1 : a * lb ≤ b * la) (h2 : b * lc ≤ c * lb) :
    a * lc ≤ c * la := by
  have h3 : a * lb * lc ≤ b * la * lc := Nat.mul_le_mul_right _ h1
  have h4 : b * lc * la ≤ c * lb * la := Nat.mul_le_mul_right _ h2
  have : (a * lc) * lb ≤ (c * la) * lb := by
    calc (a * lc) * lb = a * lb * lc := by ac_rfl
      _ ≤ b * la * lc := h3
      _ = b * lc * la := by ac_rfl
      _ ≤ c * lb * la := h4
      _ = (c * la) * lb := by ac_rfl
  exact Nat.le_of_mul_le_mul_right this hb

theorem bestLoop_spec (es done : List EditDistance) (best : EditDistance) (i : Nat)
    (hpos : ∀ e ∈ done ++ es, 0 < e.referenceLength)
    (h : (i = 0 ∧ done = []) ∨ (i ≠ 0 ∧ LeastRate best done)) (hne : done ++ es ≠ []) :
    LeastRate (bestLoop i es best) (done ++ es) := by
  induction es generalizing done best i with
  | nil =>
    rcases h with ⟨_, rfl⟩ | ⟨_, h⟩
    · simp at hne
    · simpa [bestLoop] using h
  | cons e es ih =>
    rw [bestLoop]
    have := ih (done ++ [e]) (if i = 0 || betterErrorValues e best then e else best) (i + 1)
      (by simpa using hpos) (.inr ⟨by omega, ?_⟩) (by simp)
    · simpa using this
    · rcases h with ⟨rfl, rfl⟩ | ⟨hi, hm, hl⟩
      · simp [LeastRate]
      · simp only [hi, decide_false, Bool.false_or]
        have hbe : 0 < best.referenceLength := hpos best (by simp [hm])
        have hee : 0 < e.referenceLength := hpos e (by simp)
        cases hb : betterErrorValues e best with
        | true =>
          rw [better_iff hee hbe] at hb
          refine ⟨by simp, ?_⟩
          intro x hx
          simp only [List.mem_append, List.mem_singleton] at hx
          rcases hx with hx | rfl
          · exact rate_trans hbe (Nat.le_of_lt hb) (hl x hx)
          · simp
        | false =>
          have hb' : ¬ (e.edits * best.referenceLength < best.edits * e.referenceLength) := by
            rw [← better_iff hee hbe]; simp [hb]
          refine ⟨by simp [hm], ?_⟩
          intro x hx
          simp only [List.mem_append, List.mem_singleton] at hx
          rcases hx with hx | rfl
          · simpa using hl x hx
          · simpa using hb'

/-- `e` scores an example: the first cheapest hypothesis against a reference of least error rate. -/
def Score (lt : κ → κ → Bool) (ped : List Str → List Str → EditDistance) (syms : SymTab)
    (split : Bool) (hyps refs : List (Cand κ)) (e : EditDistance) : Prop :=
  ∃ k h tt, FirstCheapest lt hyps k ∧ hyps[k]? = some h ∧ Tokens syms split h tt ∧
    ∃ trs : List (List Str), trs.length = refs.length ∧
      (∀ (j : Nat) (r : Cand κ), refs[j]? = some r → ∃ tr, trs[j]? = some tr ∧ Tokens syms split r tr) ∧
      LeastRate e (trs.map (fun tr => ped tr tt))

/-- No reference of the example is an empty token sequence. -/
def RefsNonempty (syms : SymTab) (split : Bool) (refs : List (Cand κ)) : Prop :=
  ∀ r ∈ refs, ¬ Tokens syms split r []

omit [Zero κ] in
theorem minError_spec {lt : κ → κ → Bool} (hlt : StrictWeak lt)
    {ped : List Str → List Str → EditDistance} (hped : Implements ped) {st st' : State κ} {idx : Nat}
    {hyps refs : List (Cand κ)} (hh : st.testInput[idx]? = some hyps)
    (hr : st.references[idx]? = some refs) (hyne : hyps ≠ []) (hrne : refs ≠ [])
    (hne : RefsNonempty st.outputSyms st.isSplitChars refs)
    (h : calculateMinErrorRate lt ped st idx = .ok st') :
    ∃ e, Score lt ped st.outputSyms st.isSplitChars hyps refs e ∧
      st' = { st with totals := st.totals ++ [e] } := by
  unfold calculateMinErrorRate at h
  simp only [hh, hr] at h
  split at h
  · cases h
  · next tt htt =>
    split at h
    · cases h
    · next rs hrs =>
      obtain ⟨b1, b2⟩ := all_tokens hr hrs
      have hfc := minCostIndex_spec hlt hyps hyne
      obtain ⟨c, hc, hc2⟩ := hfc
      have htok := tokenized_spec hh hc htt
      refine ⟨_, ⟨_, c, tt, ⟨c, hc, hc2⟩, hc, htok, rs, b1, b2, ?_⟩, (Except.ok.inj h).symm⟩
      have hpos : ∀ e ∈ rs.map (fun r => ped r tt), 0 < e.referenceLength := by
        intro e he
        obtain ⟨r, hr1, rfl⟩ := List.mem_map.1 he
        rw [((C34_counts r tt).2 _ (hped r tt)).1]
        obtain ⟨j, hj⟩ := List.mem_iff_getElem?.1 hr1
        have hjl : j < refs.length := by rw [← b1]; exact (List.getElem?_eq_some_iff.1 hj).1
        obtain ⟨t, ht1, ht2⟩ := b2 j _ (List.getElem?_eq_getElem hjl)
        rw [hj] at ht1
        cases r with
        | nil =>
          have : t = [] := by simpa using ht1.symm
          subst this
          exact absurd ht2 (hne _ (List.getElem_mem hjl))
        | cons => simp
      have := bestLoop_spec (rs.map (fun r => ped r tt)) [] {} 0 (by simpa using hpos) (.inl ⟨rfl, rfl⟩)
        (by
          simp only [List.nil_append, ne_eq, List.map_eq_nil_iff]
          intro h0
          rw [h0] at b1
          exact hrne (List.length_eq_zero_iff.1 b1.symm))
      simpa using this

/-- Scores of the examples before `k`, in order; examples without references are skipped. -/
inductive Scores (lt : κ → κ → Bool) (ped : List Str → List Str → EditDistance) (st : State κ) :
    Nat → List EditDistance → Prop
  | zero : Scores lt ped st 0 []
  | skip {k es} : Scores lt ped st k es → st.references[k]? = some [] → Scores lt ped st (k + 1) es
  | push {k es e hyps refs} : Scores lt ped st k es → st.testInput[k]? = some hyps →
      st.references[k]? = some refs → refs ≠ [] →
      Score lt ped st.outputSyms st.isSplitChars (scored hyps) refs e →
      Scores lt ped st (k + 1) (es ++ [e])

theorem run_scores {lt : κ → κ → Bool} (hlt : StrictWeak lt)
    {ped : List Str → List Str → EditDistance} (hped : Implements ped)
    {st : State κ} (hne : ∀ refs ∈ st.references, RefsNonempty st.outputSyms st.isSplitChars refs)
    (n : Nat) : ∀ (k : Nat) (st1 st2 : State κ), Frame st st1 k →
      Scores lt ped st k st1.totals →
      (List.range' k n).foldlM (calculateStep lt ped false) st1 = .ok st2 →
      Scores lt ped st (k + n) st2.totals := by
  induction n with
  | zero =>
    intro k st1 st2 hf hr h
    have : st1 = st2 := by simpa [pure, Except.pure] using h
    subst this; exact hr
  | succ n ih =>
    intro k st1 st2 hf hr h
    rw [List.range'_succ, List.foldlM_cons] at h
    cases hs : calculateStep lt ped false st1 k with
    | error e => rw [hs] at h; cases h
    | ok st3 =>
      rw [hs] at h
      obtain ⟨hyps, refs, h1, h2, h3, st1', hf', hp, _, h5, h6, h7⟩ := step_frame hf hs
      have hpost : Frame st st3 (k + 1) ∧ Scores lt ped st (k + 1) st3.totals := by
        unfold calculateOne at h7
        rw [h6] at h7
        cases refs with
        | nil =>
          have : st1' = st3 := by simpa using h7
          subst this
          exact ⟨hf', hp ▸ .skip hr h2⟩
        | cons r rs =>
          simp only [Bool.false_eq_true, if_false] at h7
          have hrn := hne _ (List.mem_of_getElem? h2)
          obtain ⟨m, hm, rfl⟩ := minError_spec hlt hped h5 h6
            (by cases hyps <;> simp [scored]) (by simp) (by rw [hf'.1, hf'.2.2.1]; exact hrn) h7
          refine ⟨hf', ?_⟩
          simp only [hp]
          rw [hf'.1, hf'.2.2.1] at hm
          exact .push hr h1 h2 (by simp) hm
      have := ih (k + 1) st3 st2 hpost.1 hpost.2 h
      have e : k + 1 + n = k + (n + 1) := by omega
      rwa [e] at this

/-- C50 when no reference is empty: every example with references contributes the counts of its
first cheapest hypothesis against a reference of least error rate, in order.  Missing from the full
claim: references that are empty token sequences, for which `C50_empty_reference` shows it
false. -/
theorem C50_scores_partial {lt : κ → κ → Bool} (hlt : StrictWeak lt)
    {ped : List Str → List Str → EditDistance} (hped : Implements ped) {st st' : State κ}
    (hne : ∀ refs ∈ st.references, RefsNonempty st.outputSyms st.isSplitChars refs)
    (h : calculateErrorRate lt ped false st = .ok st') :
    Scores lt ped st st.references.length st'.totals := by
  unfold calculateErrorRate at h
  split at h
  · cases h
  · simp only [Bool.false_eq_true, if_false] at h
    have := run_scores hlt hped hne st.references.length 0 { st with totals := [] } st'
      ⟨rfl, rfl, rfl, by simp⟩ .zero (by rw [← List.range_eq_range']; exact h)
    simpa using this

theorem foldl_add (es : List EditDistance) (a : EditDistance) :
    (es.foldl EditDistance.add a).edits = a.edits + (es.map (·.edits)).sum ∧
    (es.foldl EditDistance.add a).referenceLength = a.referenceLength + (es.map (·.referenceLength)).sum := by
  induction es generalizing a with
  | nil => simp
  | cons e es ih =>
    obtain ⟨h1, h2⟩ := ih (a.add e)
    simp only [List.foldl_cons, h1, h2, List.map_cons, List.sum_cons]
    simp only [EditDistance.add, EditDistance.edits]
    omega

omit [Zero κ] in
/-- C50: the overall counts are the sums over the scored examples. -/
theorem C50_total [Zero κ] (st : State κ) :
    (totalErrors st).edits = (st.totals.map (·.edits)).sum ∧
    (totalErrors st).referenceLength = (st.totals.map (·.referenceLength)).sum := by
  have := foldl_add st.totals {}
  simpa [totalErrors, EditDistance.edits] using this

/-- With an empty reference the choice depends on the order: hypothesis and second reference are
both empty, so that reference matches exactly, but the first reference is kept, with its edits. -/
theorem C50_empty_reference (ped : List Str → List Str → EditDistance) (hped : Implements ped) :
    let st := readBoth [(0, [97], (0 : Nat)), (0, [32], 0)] [(0, [32], 0)] true
    ∃ st' e, calculateErrorRate (fun a b => decide (a < b)) ped false st = .ok st' ∧
      st'.totals = [e] ∧ e.edits = 1 ∧ (ped [] []).edits = 0 := by
  have h1 := (C34_counts [[97]] []).2 _ (hped [[97]] [])
  have h2 := (C34_counts [] []).2 _ (hped [] [])
  have e1 : (ped [[97]] []).edits = 1 ∧ (ped [[97]] []).referenceLength = 1 := by
    refine ⟨?_, h1.1⟩
    obtain ⟨_, h3, h4⟩ := C34_min_alignment_partial [[97]] [] (by decide) (by decide) _ (hped [[97]] [])
    have hle := h4 0 0 1 (.del .nil)
    have hlen := align_length h3
    simp at hlen
    simp only [EditDistance.edits]; omega
  have e2 : (ped [] []).edits = 0 ∧ (ped [] []).referenceLength = 0 := by
    refine ⟨?_, h2.1⟩
    have := h2.2.2 0 0 0 .nil
    simp only [EditDistance.edits]; omega
  have hb : betterErrorValues (ped [] []) (ped [[97]] []) = false := by
    simp [betterErrorValues, EditDistance.errorRate, e1, e2, Rate.lt]
  refine ⟨_, ped [[97]] [], rfl, ?_, e1.1, e2.1⟩
  change [bestLoop 0 [ped [[97]] [], ped [] []] {}] = _
  simp [bestLoop, hb]

/-- `<` on numbers is a strict weak order. -/
example : StrictWeak (fun a b : Nat => decide (a < b)) :=
  ⟨by simp, by intro a b c; simp; omega, by intro a b c; simp; omega⟩

/-- An implementation exists. -/
example : ∃ ped, Implements ped :=
  ⟨fun r t => (C34_counts r t).1.choose, fun r t => (C34_counts r t).1.choose_spec⟩

end Nisaba.Props
