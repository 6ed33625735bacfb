import Verif.Model.Kbest
import Verif.Props.ErrorRate
import Verif.Lemmas.Kbest
/-!
# C36, C37, C53, C54: combining k-best lists
-/
namespace Nisaba.Props
open Nisaba Nisaba.Fst Nisaba.Utf8 Nisaba.Kbest
open Nisaba.ErrorRate (Err strJoin)

/-! ## C36 -/

/-- `v` occurs at least as often as any other member of `l`, and is the largest such value. -/
def LargestMode (v : Int) (l : List Int) : Prop :=
  v ∈ l ∧ ∀ w ∈ l, l.count w < l.count v ∨ (l.count w = l.count v ∧ w ≤ v)

/-- State of the loop after the sorted prefix `P` whose last element is `p`. -/
def ModeInv (P : List Int) (p : Int) (curr mx : Nat) (most : Int) : Prop :=
  p ∈ P ∧ (∀ w ∈ P, w ≤ p) ∧ curr = P.count p ∧
  ((mx = 0 ∧ most = -1 ∧ ∀ w ∈ P, w = p) ∨
   (most ∈ P ∧ most < p ∧ mx = P.count most ∧
    ∀ w ∈ P, w ≠ p → P.count w < mx ∨ (P.count w = mx ∧ w ≤ most)))

theorem mode_step (P : List Int) (p x : Int) (curr mx : Nat) (most : Int) (hx : p ≤ x)
    (h : ModeInv P p curr mx most) :
    if x ≠ p then
      (if curr ≥ mx then ModeInv (P ++ [x]) x 1 curr p else ModeInv (P ++ [x]) x 1 mx most)
    else ModeInv (P ++ [x]) x (curr + 1) mx most := by
  obtain ⟨hp, hle, hcurr, hor⟩ := h
  have hcpos : 0 < P.count p := List.count_pos_iff.2 hp
  split
  · next hne =>
    have hlt : p < x := by omega
    have hxP : x ∉ P := fun hm => by have := hle x hm; omega
    have hcx : (P ++ [x]).count x = 1 := by
      rw [List.count_append, List.count_eq_zero_of_not_mem hxP]; simp
    have hco : ∀ w, w ≠ x → (P ++ [x]).count w = P.count w := by
      intro w hw
      rw [List.count_append]
      have : [x].count w = 0 := List.count_eq_zero_of_not_mem (by simpa using hw)
      omega
    have base : x ∈ P ++ [x] ∧ (∀ w ∈ P ++ [x], w ≤ x) ∧ 1 = (P ++ [x]).count x := by
      refine ⟨by simp, ?_, hcx.symm⟩
      intro w hw
      simp only [List.mem_append, List.mem_singleton] at hw
      rcases hw with hw | rfl
      · have := hle w hw; omega
      · omega
    split
    · next hge =>
      refine ⟨base.1, base.2.1, base.2.2, .inr ⟨by simp [hp], hlt, ?_, ?_⟩⟩
      · rw [hco p (by omega)]; exact hcurr
      · intro w hw hwx
        rw [hco w hwx]
        simp only [List.mem_append, List.mem_singleton] at hw
        have hwP : w ∈ P := by rcases hw with h | h; exact h; exact absurd h hwx
        by_cases hwp : w = p
        · subst hwp; exact .inr ⟨hcurr.symm, by omega⟩
        · rcases hor with ⟨_, _, h3⟩ | ⟨h1, h2, h3, h4⟩
          · exact absurd (h3 w hwP) hwp
          · have hle' := hle w hwP
            rcases h4 w hwP hwp with h | ⟨h, _⟩
            · exact .inl (by omega)
            · by_cases he : P.count w = curr
              · exact .inr ⟨he, hle'⟩
              · exact .inl (by omega)
    · next hge =>
      rcases hor with ⟨h1, _, _⟩ | ⟨h1, h2, h3, h4⟩
      · omega
      · refine ⟨base.1, base.2.1, base.2.2, .inr ⟨by simp [h1], by omega, ?_, ?_⟩⟩
        · rw [hco most (by omega)]; exact h3
        · intro w hw hwx
          rw [hco w hwx]
          simp only [List.mem_append, List.mem_singleton] at hw
          have hwP : w ∈ P := by rcases hw with h | h; exact h; exact absurd h hwx
          by_cases hwp : w = p
          · subst hwp; exact .inl (by omega)
          · exact h4 w hwP hwp
  · next hne =>
    have hxp : x = p := by simpa using hne
    subst hxp
    have hcx : (P ++ [x]).count x = P.count x + 1 := by rw [List.count_append]; simp
    have hco : ∀ w, w ≠ x → (P ++ [x]).count w = P.count w := by
      intro w hw
      rw [List.count_append]
      have : [x].count w = 0 := List.count_eq_zero_of_not_mem (by simpa using hw)
      omega
    refine ⟨by simp, ?_, by omega, ?_⟩
    · intro w hw
      simp only [List.mem_append, List.mem_singleton] at hw
      rcases hw with hw | rfl
      · exact hle w hw
      · omega
    · rcases hor with ⟨h1, h2, h3⟩ | ⟨h1, h2, h3, h4⟩
      · refine .inl ⟨h1, h2, ?_⟩
        intro w hw
        simp only [List.mem_append, List.mem_singleton] at hw
        rcases hw with hw | rfl
        · exact h3 w hw
        · rfl
      · refine .inr ⟨by simp [h1], h2, by rw [hco most (by omega)]; exact h3, ?_⟩
        intro w hw hwx
        rw [hco w hwx]
        simp only [List.mem_append, List.mem_singleton] at hw
        have hwP : w ∈ P := by rcases hw with h | h; exact h; exact absurd h hwx
        exact h4 w hwP hwx

theorem mode_loop (S P : List Int) (p : Int) (curr mx : Nat) (most : Int)
    (hs : (p :: S).Pairwise (· ≤ ·)) (h : ModeInv P p curr mx most) :
    ∃ q, (p :: S).getLast? = some q ∧
      ModeInv (P ++ S) q (mfLoop (some p) curr mx most S).1 (mfLoop (some p) curr mx most S).2.1
        (mfLoop (some p) curr mx most S).2.2 := by
  induction S generalizing P p curr mx most with
  | nil => exact ⟨p, rfl, by simpa [mfLoop] using h⟩
  | cons x S ih =>
    have hx : p ≤ x := by
      have := List.rel_of_pairwise_cons hs (a' := x) (by simp); exact this
    have hs' : (x :: S).Pairwise (· ≤ ·) := (List.pairwise_cons.1 hs).2
    have hst := mode_step P p x curr mx most hx h
    have e : (p :: x :: S).getLast? = (x :: S).getLast? := by simp [List.getLast?_cons]
    rw [e, mfLoop]
    have e2 : P ++ x :: S = (P ++ [x]) ++ S := by simp
    rw [e2]
    split at hst
    · next hne =>
      rw [if_pos hne]
      split at hst
      · next hge => rw [if_pos hge]; exact ih _ _ _ _ _ hs' hst
      · next hge => rw [if_neg hge]; exact ih _ _ _ _ _ hs' hst
    · next hne =>
      rw [if_neg hne]; exact ih _ _ _ _ _ hs' hst

/-- C36: for a non-empty list of counts the chosen value is the most frequent one, and the largest
of several most frequent values. -/
theorem C36_mode (l : List Int) (hne : l ≠ []) (hpos : ∀ x ∈ l, 0 ≤ x) :
    ∃ v, mostFreqValue l = some v ∧ LargestMode v l := by
  let v := l.mergeSort (fun a b => decide (a ≤ b))
  have hperm : v.Perm l := List.mergeSort_perm l _
  have hsorted : v.Pairwise (· ≤ ·) := by
    have := List.pairwise_mergeSort (le := fun a b : Int => decide (a ≤ b))
      (by intro a b c; simp; omega) (by intro a b; simp; omega) l
    simpa using this
  have hmode : ∀ x, LargestMode x v → LargestMode x l := by
    rintro x ⟨h1, h2⟩
    refine ⟨hperm.mem_iff.1 h1, fun w hw => ?_⟩
    have := h2 w (hperm.mem_iff.2 hw)
    rwa [hperm.count_eq, hperm.count_eq] at this
  have hvne : v ≠ [] := by
    intro h
    rw [h] at hperm
    exact hne hperm.nil_eq.symm
  obtain ⟨x, S, hv⟩ : ∃ x S, v = x :: S := by
    cases hq : v with
    | nil => exact absurd hq hvne
    | cons x S => exact ⟨x, S, rfl⟩
  have h0 : ModeInv [x] x 1 0 (-1) := by simp [ModeInv]
  obtain ⟨q, hq, hinv⟩ := mode_loop S [x] x 1 0 (-1) (hv ▸ hsorted) h0
  have hloop : mfLoop none 0 0 (-1) v = mfLoop (some x) 1 0 (-1) S := by rw [hv, mfLoop]
  have hP : [x] ++ S = v := by rw [hv]; rfl
  rw [hP, ← hloop] at hinv
  rw [← hv] at hq
  have hmf : mostFreqValue l = if (mfLoop none 0 0 (-1) v).2.2 < 0 ∨
      (mfLoop none 0 0 (-1) v).1 ≥ (mfLoop none 0 0 (-1) v).2.1 then v.getLast?
      else some (mfLoop none 0 0 (-1) v).2.2 := rfl
  generalize (mfLoop none 0 0 (-1) v).1 = curr at *
  generalize (mfLoop none 0 0 (-1) v).2.1 = mx at *
  generalize (mfLoop none 0 0 (-1) v).2.2 = most at *
  obtain ⟨hqm, hle, hcurr, hor⟩ := hinv
  rw [hmf]
  split
  · next hc =>
    refine ⟨q, hq, hmode q ⟨hqm, ?_⟩⟩
    intro w hw
    by_cases hwq : w = q
    · subst hwq; exact .inr ⟨rfl, by omega⟩
    · rcases hor with ⟨_, _, h3⟩ | ⟨h1, h2, h3, h4⟩
      · exact absurd (h3 w hw) hwq
      · have hm0 : 0 ≤ most := hpos most (hperm.mem_iff.1 h1)
        have hge : curr ≥ mx := by rcases hc with h | h; omega; exact h
        have hl := hle w hw
        rcases h4 w hw hwq with h | ⟨h, _⟩
        · exact .inl (by omega)
        · by_cases he : v.count w = v.count q
          · exact .inr ⟨he, hl⟩
          · exact .inl (by omega)
  · next hc =>
    have hc1 : ¬ most < 0 := fun h => hc (.inl h)
    have hc2 : ¬ curr ≥ mx := fun h => hc (.inr h)
    rcases hor with ⟨h1, _, _⟩ | ⟨h1, h2, h3, h4⟩
    · omega
    · refine ⟨most, rfl, hmode most ⟨h1, ?_⟩⟩
      intro w hw
      by_cases hwq : w = q
      · subst hwq; exact .inl (by omega)
      · rcases h4 w hw hwq with h | ⟨h, h'⟩
        · exact .inl (by omega)
        · exact .inr ⟨by omega, h'⟩

/-- Two values occur twice: the larger one is chosen. -/
example : mostFreqValue [3, 1, 2, 3, 2] = some 3 := by
  simp [mostFreqValue, List.mergeSort, List.MergeSort.Internal.splitInTwo, mfLoop]

/-! ## C53 -/

theorem mapM_option_some {α β : Type} {f : α → Option β} {l : List α} {ys : List β}
    (h : l.mapM f = some ys) :
    ys.length = l.length ∧ ∀ (i : Nat) (x : α), l[i]? = some x → ∃ y, ys[i]? = some y ∧ f x = some y := by
  induction l generalizing ys with
  | nil => simp [pure] at h; subst h; simp
  | cons a l ih =>
    rw [List.mapM_cons] at h
    cases ha : f a with
    | none => rw [ha] at h; cases h
    | some b =>
      rw [ha] at h
      cases hl : l.mapM f with
      | none => rw [hl] at h; cases h
      | some bs =>
        rw [hl] at h
        have : b :: bs = ys := by simpa [bind, Option.bind, pure] using h
        subst this
        obtain ⟨h1, h2⟩ := ih hl
        refine ⟨by simp [h1], ?_⟩
        intro i x hx
        cases i with
        | zero => simp at hx; subst hx; exact ⟨b, rfl, ha⟩
        | succ i => simpa using h2 i x (by simpa using hx)

/-- Number of words of a candidate. -/
def HasWords (c : Kbest.Cand) (n : Nat) : Prop := ∃ ws, words c.1 = some ws ∧ ws.length = n

theorem alignLoop_some (first : Int) (b : List Int) (next : Nat) (cs : List Int)
    (h : ∀ c ∈ cs, c = first) : alignLoop first (some b) next cs = List.replicate cs.length b := by
  induction cs with
  | nil => rfl
  | cons c cs ih =>
    rw [alignLoop, if_pos (h c (by simp)), ih (fun x hx => h x (by simp [hx]))]
    rfl

theorem alignLoop_same (n : Nat) (cs : List Int) (h : ∀ c ∈ cs, c = (n : Int)) (hne : cs ≠ []) :
    alignLoop n none 1 cs = List.replicate cs.length ((List.range' 1 (n - 1)).map Int.ofNat) := by
  cases cs with
  | nil => exact absurd rfl hne
  | cons c cs =>
    have hc := h c (by simp)
    subst hc
    rw [alignLoop, if_pos rfl]
    simp only [Int.toNat_natCast]
    rw [alignLoop_some _ _ _ _ (fun x hx => h x (by simp [hx]))]
    rfl

theorem buildChecks_loop (n : Nat) (b : List Int) (hb : b.length = n - 1) (hpos : ∀ s ∈ b, 0 ≤ s)
    (kept : List Kbest.Cand) (hk : ∀ c ∈ kept, HasWords c n) (hne : kept ≠ []) :
    buildChecks (kept, List.replicate kept.length b) = if n = 0 then .error .check else .ok () := by
  have hall : (b.all fun s => decide (s ≥ 0)) = true := by simpa using hpos
  by_cases h0 : n = 0
  · cases kept with
    | nil => exact absurd rfl hne
    | cons c kept =>
      obtain ⟨ws, hw, hl⟩ := hk c (by simp)
      have : b.length + 1 ≠ ws.length := by omega
      simp [buildChecks, List.replicate_succ, hw, this, h0, bind, Except.bind]
  · clear hne
    simp only [h0, if_false]
    induction kept with
    | nil => rfl
    | cons c kept ih =>
      obtain ⟨ws, hw, hl⟩ := hk c (by simp)
      have : b.length + 1 = ws.length := by omega
      have ih := ih (fun x hx => hk x (by simp [hx]))
      unfold buildChecks at ih ⊢
      simp only [List.length_cons, List.replicate_succ, List.zip_cons_cons, List.foldlM_cons, hw]
      simp only [this, ne_eq, not_true_eq_false, if_false, hall, if_true]
      exact ih

/-- C53: aligning a non-empty list of candidates keeps all of them when they have the same number
of words, otherwise those with the given number of words, or with the most frequent one if none is
given.  All kept candidates share the same boundary states, one fewer than they have words, and the
internal checks pass, unless the kept candidates have no words at all. -/
theorem C53_aligned (len : Int) (inputs kept : List Kbest.Cand) (states : List (List Int))
    (h : simpleAlign len inputs = .ok (kept, states)) (hk : kept ≠ []) :
    ∃ n : Nat, (∀ c ∈ kept, HasWords c n) ∧
      ((∀ c ∈ inputs, HasWords c n) ∧ kept = inputs ∨
       (¬ ∀ c ∈ inputs, HasWords c n) ∧
        (0 < len → (n : Int) = len) ∧
        (∀ counts : List Int, counts.length = inputs.length →
          (∀ (i : Nat) (c : Kbest.Cand) (k : Int), inputs[i]? = some c → counts[i]? = some k →
            HasWords c k.toNat ∧ 0 ≤ k) → len ≤ 0 → LargestMode n counts)) ∧
      kept.Sublist inputs ∧ (∀ c ∈ inputs, HasWords c n → c ∈ kept) ∧
      states = List.replicate kept.length ((List.range' 1 (n - 1)).map Int.ofNat) ∧
      buildChecks (kept, states) = if n = 0 then .error .check else .ok () := by
  unfold simpleAlign at h
  cases hin : inputs with
  | nil => rw [hin] at h; simp at h; exact absurd h.1 hk
  | cons i0 is =>
    rw [← hin]
    have hine : inputs ≠ [] := by simp [hin]
    rw [hin] at h
    simp only at h
    rw [← hin] at h
    cases hc : inputs.mapM (fun c => getWordCount c.1) with
    | none => rw [hc] at h; cases h
    | some counts =>
      rw [hc] at h
      obtain ⟨hl, hcnt⟩ := mapM_option_some hc
      have hcount : ∀ (i : Nat) (c : Kbest.Cand), inputs[i]? = some c →
          ∃ n : Nat, counts[i]? = some (n : Int) ∧ HasWords c n := by
        intro i c hi
        obtain ⟨y, hy1, hy2⟩ := hcnt i c hi
        unfold getWordCount at hy2
        cases hw : words c.1 with
        | none => rw [hw] at hy2; cases hy2
        | some ws =>
          rw [hw] at hy2
          have : (ws.length : Int) = y := by simpa using hy2
          subst this
          exact ⟨ws.length, hy1, ws, hw, rfl⟩
      have huniq : ∀ (c : Kbest.Cand) (m n : Nat), HasWords c m → HasWords c n → m = n := by
        rintro c m n ⟨a, ha, rfl⟩ ⟨b, hb, rfl⟩
        rw [ha] at hb
        rw [Option.some.inj hb]
      have hcpos : 0 < counts.length := by rw [hl]; exact List.length_pos_iff.2 hine
      simp only at h
      cases hs : counts.all (fun c => some c == counts.head?) with
      | true =>
        simp only [hs, if_true] at h
        cases hcs : counts with
        | nil => rw [hcs] at hcpos; simp at hcpos
        | cons c cs =>
          rw [hcs] at h hs
          simp only at h
          have hsame : ∀ x ∈ c :: cs, x = c := by
            intro x hx
            have := List.all_eq_true.1 hs x hx
            simpa using this
          have hfst : ∃ n : Nat, c = (n : Int) := by
            obtain ⟨n, hn, _⟩ := hcount 0 _ (List.getElem?_eq_getElem (List.length_pos_iff.2 hine))
            rw [hcs] at hn
            exact ⟨n, by simpa using hn⟩
          obtain ⟨n, rfl⟩ := hfst
          have hwords : ∀ c ∈ inputs, HasWords c n := by
            intro c hcm
            obtain ⟨i, hi⟩ := List.mem_iff_getElem?.1 hcm
            obtain ⟨m, hm, hw⟩ := hcount i c hi
            have : (m : Int) = n := hsame m (hcs ▸ List.mem_of_getElem? hm)
            have : m = n := by omega
            exact this ▸ hw
          obtain ⟨rfl, rfl⟩ : inputs = kept ∧ _ = states := by simpa using h
          have hst := alignLoop_same n ((n : Int) :: cs) hsame (by simp)
          have hlen : ((n : Int) :: cs).length = inputs.length := by rw [← hcs, hl]
          rw [hlen] at hst
          refine ⟨n, hwords, .inl ⟨hwords, rfl⟩, List.Sublist.refl _, fun c hc _ => hc, hst, ?_⟩
          rw [hst]
          exact buildChecks_loop n _ (by simp) (by
            intro s hs; obtain ⟨m, _, rfl⟩ := List.mem_map.1 hs; exact Int.natCast_nonneg m) inputs hwords hk
      | false =>
        simp only [hs, Bool.false_eq_true, if_false] at h
        unfold pruneByInputLength at h
        generalize ht : (if len > 0 then some len else mostFreqValue counts) = target at h
        cases target with
        | none => cases h
        | some t =>
          simp only at h
          generalize hkd : (inputs.zip counts).filter (fun p => p.2 == t) = kp at h
          have hkp : ∀ p ∈ kp, p.2 = t ∧ p.1 ∈ inputs ∧ ∃ m : Nat, t = (m : Int) ∧ HasWords p.1 m := by
            intro p hp
            rw [← hkd, List.mem_filter] at hp
            obtain ⟨hz, he⟩ := hp
            obtain ⟨i, hi⟩ := List.mem_iff_getElem?.1 hz
            have hz2 : inputs[i]? = some p.1 ∧ counts[i]? = some p.2 := List.getElem?_zip_eq_some.1 hi
            obtain ⟨m, hm, hw⟩ := hcount i p.1 hz2.1
            have h1 : p.2 = t := by simpa using he
            refine ⟨h1, List.mem_of_getElem? hz2.1, m, ?_, hw⟩
            rw [hz2.2] at hm
            rw [← h1]; simpa using hm
          have hkept : kept = kp.map (·.1) := by
            cases hm : kp.map (·.2) with
            | nil => rw [hm] at h; simp at h; exact h.1.symm
            | cons a b => rw [hm] at h; simp at h; exact h.1.symm
          have hkpne : kp ≠ [] := by
            rintro rfl; exact hk (by simpa using hkept)
          obtain ⟨p0, hp0⟩ := List.exists_mem_of_ne_nil kp hkpne
          obtain ⟨_, _, n, rfl, _⟩ := hkp p0 hp0
          have hw : ∀ c ∈ kept, HasWords c n := by
            intro c hc
            rw [hkept] at hc
            obtain ⟨p, hp, rfl⟩ := List.mem_map.1 hc
            obtain ⟨_, _, m, hm, hw⟩ := hkp p hp
            have : n = m := by omega
            exact this ▸ hw
          have hst : states = List.replicate kept.length ((List.range' 1 (n - 1)).map Int.ofNat) := by
            have hall : ∀ x ∈ kp.map (·.2), x = (n : Int) := by
              intro x hx
              obtain ⟨p, hp, rfl⟩ := List.mem_map.1 hx
              exact (hkp p hp).1
            cases hm : kp.map (·.2) with
            | nil => simp at hm; exact absurd hm hkpne
            | cons a b =>
              rw [hm] at h hall
              have ha : a = (n : Int) := hall a (by simp)
              subst ha
              simp only [Except.ok.injEq, Prod.mk.injEq] at h
              rw [← h.2, alignLoop_same n _ hall (by simp), ← hm, hkept]
              simp
          have hsub : kept.Sublist inputs := by
            rw [hkept, ← hkd]
            have : (inputs.zip counts).map (·.1) = inputs := by
              rw [List.map_fst_zip (by omega)]
            conv => rhs; rw [← this]
            exact List.Sublist.map _ List.filter_sublist
          have hmem : ∀ c ∈ inputs, HasWords c n → c ∈ kept := by
            intro c hc hcw
            obtain ⟨i, hi⟩ := List.mem_iff_getElem?.1 hc
            obtain ⟨m, hm, hw'⟩ := hcount i c hi
            have : m = n := huniq c m n hw' hcw
            subst this
            rw [hkept, ← hkd]
            refine List.mem_map.2 ⟨(c, (m : Int)), List.mem_filter.2 ⟨?_, by simp⟩, rfl⟩
            exact List.mem_of_getElem? (List.getElem?_zip_eq_some.2 ⟨hi, hm⟩)
          refine ⟨n, hw, .inr ⟨?_, ?_, ?_⟩, hsub, hmem, hst, ?_⟩
          · intro hallw
            have : counts.all (fun c => some c == counts.head?) = true := by
              rw [List.all_eq_true]
              have hval : ∀ x ∈ counts, x = (n : Int) := by
                intro x hx
                obtain ⟨i, hi⟩ := List.mem_iff_getElem?.1 hx
                have hil : i < inputs.length := by rw [← hl]; exact (List.getElem?_eq_some_iff.1 hi).1
                obtain ⟨m, hm, hw'⟩ := hcount i _ (List.getElem?_eq_getElem hil)
                have : m = n := huniq _ m n hw' (hallw _ (List.getElem_mem hil))
                subst this
                rw [hi] at hm; simpa using hm
              intro x hx
              cases hcs : counts with
              | nil => rw [hcs] at hx; simp at hx
              | cons a b =>
                simp [hval x hx, hval a (by simp [hcs])]
            rw [hs] at this; cases this
          · intro hlen
            rw [if_pos hlen] at ht
            exact (Option.some.inj ht).symm
          · intro counts' hl' hc' hlen
            have : counts' = counts := by
              apply List.ext_getElem? 
              intro i
              cases hi : inputs[i]? with
              | none =>
                have : inputs.length ≤ i := List.getElem?_eq_none_iff.1 hi
                rw [List.getElem?_eq_none (by omega), List.getElem?_eq_none (by omega)]
              | some c =>
                obtain ⟨m, hm, hw'⟩ := hcount i c hi
                have hil : i < counts'.length := by
                  rw [hl']; exact (List.getElem?_eq_some_iff.1 hi).1
                have h1 := hc' i c _ hi (List.getElem?_eq_getElem hil)
                have : counts'[i].toNat = m := huniq c _ _ h1.1 hw'
                rw [List.getElem?_eq_getElem hil, hm]
                congr 1
                omega
            subst this
            have hlen' : ¬ (0 < len) := by omega
            rw [if_neg hlen'] at ht
            obtain ⟨v, hv1, hv2⟩ := C36_mode counts' (List.length_pos_iff.1 hcpos) (by
              intro x hx
              obtain ⟨i, hi⟩ := List.mem_iff_getElem?.1 hx
              have hil : i < inputs.length := by rw [← hl]; exact (List.getElem?_eq_some_iff.1 hi).1
              obtain ⟨m, hm, _⟩ := hcount i _ (List.getElem?_eq_getElem hil)
              rw [hi] at hm
              have : x = (m : Int) := by simpa using hm
              omega)
            rw [hv1] at ht
            have : v = (n : Int) := by simpa using ht
            exact this ▸ hv2
          · rw [hst]
            exact buildChecks_loop n _ (by simp) (by
              intro s hs; obtain ⟨m, _, rfl⟩ := List.mem_map.1 hs; exact Int.natCast_nonneg m) kept hw hk

/-- Three candidates, two of them with two words: the third is dropped. -/
example : simpleAlign 2 [([97, 32, 98], 1), ([97], 2), ([99, 32, 100], 3)] =
    .ok ([([97, 32, 98], 1), ([99, 32, 100], 3)], [[1], [1]]) := by
  rfl

/-- A candidate of spaces only: the check fails. -/
example : simpleAlign 0 [([32], 1)] = .ok ([([32], 1)], [[]]) ∧
    buildChecks ([([32], 1)], [[]]) = .error .check := ⟨rfl, rfl⟩

/-! ## C37 -/

/-- `best` lists `k` choices of least score in order of score, or all choices if there are fewer. -/
structure BestChoices (lists : List (List Kbest.Cand)) (k : Nat)
    (best : List (List Nat × List Kbest.Cand)) : Prop where
  choice : ∀ b ∈ best, Choice lists b.1 b.2
  nodup : (best.map (·.1)).Nodup
  sorted : best.Pairwise (fun a b => total a.2 ≤ total b.2)
  length : best.length ≤ k
  least : ∀ js cs, Choice lists js cs → js ∉ best.map (·.1) →
    best.length = k ∧ ∀ b ∈ best, total b.2 ≤ total cs

/-- A candidate made of parts: its words are the words of the parts, separated by single spaces. -/
def Joined (cs : List Kbest.Cand) (c : Kbest.Cand) : Prop :=
  ∃ wss : List (List Str), cs.map (fun x => words x.1) = wss.map some ∧
    c = (strJoin [32] wss.flatten, total cs)

theorem words_strJoin (ss : List Str) (h : ∀ s ∈ ss, Text s) (hne : ss ≠ []) :
    Text (strJoin [32] ss) ∧ ∃ wss : List (List Str), ss.map words = wss.map some ∧
      words (strJoin [32] ss) = some wss.flatten := by
  induction ss with
  | nil => exact absurd rfl hne
  | cons s ss ih =>
    cases ss with
    | nil =>
      have hs := h s (by simp)
      refine ⟨hs, ?_⟩
      obtain ⟨cs, rfl, hcs⟩ := hs
      exact ⟨[(wordsOf cs).map encodeText], by simp [words_eq cs hcs], by simp [strJoin, words_eq cs hcs]⟩
    | cons t ss =>
      obtain ⟨h1, wss, h2, h3⟩ := ih (fun x hx => h x (by simp [hx])) (by simp)
      have hs := h s (by simp)
      obtain ⟨a, b, ha, hb, hab⟩ := words_join s _ hs h1
      have e : strJoin [32] (s :: t :: ss) = s ++ 32 :: strJoin [32] (t :: ss) := by
        simp [strJoin]
      rw [e]
      refine ⟨text_join _ _ hs h1, a :: wss, ?_, ?_⟩
      · simp only [List.map_cons] at h2 ⊢
        rw [h2, ha]
      · rw [hab]
        rw [h3] at hb
        simp [Option.some.inj hb]

theorem pairwise_of_map {α β : Type} {f : α → β} {R : β → β → Prop} {l : List α}
    (h : (l.map f).Pairwise R) : l.Pairwise (fun a b => R (f a) (f b)) :=
  List.pairwise_map.1 h

/-- The choices behind a list of accepting paths. -/
theorem choices_of_paths {lists : List (List Kbest.Cand)} {ps : List (List (Step Rat))}
    (h : ∀ p ∈ ps, (rejoinFst lists).mach.Accepts p) :
    ∃ best : List (List Nat × List Kbest.Cand), (∀ b ∈ best, Choice lists b.1 b.2) ∧
      ps = best.map (fun b => stepsOf b.1 b.2) := by
  induction ps with
  | nil => exact ⟨[], by simp, rfl⟩
  | cons p ps ih =>
    obtain ⟨best, h1, h2⟩ := ih (fun x hx => h x (by simp [hx]))
    obtain ⟨js, cs, hc, rfl⟩ := (Kbest.accepts_iff lists p).1 (h p (by simp))
    refine ⟨(js, cs) :: best, ?_, by rw [h2]; rfl⟩
    intro b hb
    rcases List.mem_cons.1 hb with rfl | hb
    · exact hc
    · exact h1 b hb

theorem best_of_shortest {lists : List (List Kbest.Cand)} {k : Nat} {ps : List (List (Step Rat))}
    (h : NShortest (rejoinFst lists).mach k ps) :
    ∃ best, BestChoices lists k best ∧ ps = best.map (fun b => stepsOf b.1 b.2) := by
  obtain ⟨h1, h2, h3, h4, h5⟩ := h
  obtain ⟨best, hb, rfl⟩ := choices_of_paths h1
  refine ⟨best, ⟨hb, ?_, ?_, by simpa using h3, ?_⟩, rfl⟩
  · have h2 := pairwise_of_map h2
    rw [List.Nodup, List.pairwise_map]
    refine List.Pairwise.imp_of_mem ?_ h2
    intro a b ha hb' hab e
    apply hab
    have h1 := hb a ha
    have h2 := hb b hb'
    rw [e] at h1
    rw [e, choice_unique h1 h2]
  · have h4 := pairwise_of_map h4
    refine List.Pairwise.imp_of_mem ?_ h4
    intro a b ha hb' hab
    rwa [weight_stepsOf (hb a ha), weight_stepsOf (hb b hb')] at hab
  · intro js cs hc hjs
    have := h5 (stepsOf js cs) ((Kbest.accepts_iff lists _).2 ⟨js, cs, hc, rfl⟩) (by
      intro hm
      obtain ⟨b, hb', e⟩ := List.mem_map.1 hm
      exact hjs (List.mem_map.2 ⟨b, hb', stepsOf_inj (hb b hb') hc e⟩))
    refine ⟨by simpa using this.1, ?_⟩
    intro b hb'
    have := this.2 _ (List.mem_map.2 ⟨b, hb', rfl⟩)
    rwa [weight_stepsOf (hb b hb'), weight_stepsOf hc] at this

theorem shortest_of_best {lists : List (List Kbest.Cand)} {k : Nat}
    {best : List (List Nat × List Kbest.Cand)} (h : BestChoices lists k best) :
    NShortest (rejoinFst lists).mach k (best.map (fun b => stepsOf b.1 b.2)) := by
  refine ⟨?_, ?_, by simpa using h.length, ?_, ?_⟩
  · intro p hp
    obtain ⟨b, hb, rfl⟩ := List.mem_map.1 hp
    exact (Kbest.accepts_iff lists _).2 ⟨_, _, h.choice b hb, rfl⟩
  · rw [List.Nodup, List.pairwise_map]
    refine List.Pairwise.imp_of_mem ?_ (pairwise_of_map h.nodup)
    intro a b ha hb hab e
    exact hab (stepsOf_inj (h.choice a ha) (h.choice b hb) e)
  · rw [List.pairwise_map]
    refine List.Pairwise.imp_of_mem ?_ h.sorted
    intro a b ha hb hab
    rwa [weight_stepsOf (h.choice a ha), weight_stepsOf (h.choice b hb)]
  · intro q hq hnot
    obtain ⟨js, cs, hc, rfl⟩ := (Kbest.accepts_iff lists q).1 hq
    have := h.least js cs hc (by
      intro hm
      obtain ⟨b, hb, rfl⟩ := List.mem_map.1 hm
      exact hnot (List.mem_map.2 ⟨b, hb, by rw [choice_unique (h.choice b hb) hc]⟩))
    refine ⟨by simpa using this.1, ?_⟩
    intro p hp
    obtain ⟨b, hb, rfl⟩ := List.mem_map.1 hp
    rw [weight_stepsOf (h.choice b hb), weight_stepsOf hc]
    exact this.2 b hb

theorem exists_enum (lists : List (List Kbest.Cand)) : ∃ all : List (List Nat × List Kbest.Cand),
    (∀ b ∈ all, Choice lists b.1 b.2) ∧ (all.map (·.1)).Nodup ∧
    ∀ js cs, Choice lists js cs → (js, cs) ∈ all := by
  induction lists with
  | nil => exact ⟨[([], [])], by simpa using Choice.nil, by simp, by rintro _ _ ⟨⟩; simp⟩
  | cons l ls ih =>
    obtain ⟨all, h1, h2, h3⟩ := ih
    refine ⟨(List.range l.length).flatMap (fun j =>
      match l[j]? with
      | none => []
      | some c => all.map (fun b => (j :: b.1, c :: b.2))), ?_, ?_, ?_⟩
    · intro b hb
      obtain ⟨j, _, hb⟩ := List.mem_flatMap.1 hb
      cases hj : l[j]? with
      | none => rw [hj] at hb; simp at hb
      | some c =>
        rw [hj] at hb
        obtain ⟨b', hb', rfl⟩ := List.mem_map.1 hb
        exact .cons hj (h1 b' hb')
    · rw [List.map_flatMap, List.Nodup, List.pairwise_flatMap]
      constructor
      · intro j _
        cases hj : l[j]? with
        | none => simp
        | some c =>
          simp only [List.map_map]
          rw [List.pairwise_map]
          exact (pairwise_of_map h2).imp (fun h e => h (by simpa using e))
      · refine List.Pairwise.imp ?_ List.nodup_range
        intro a b hab x hx y hy e
        cases ha : l[a]? with
        | none => rw [ha] at hx; simp at hx
        | some c =>
          cases hb : l[b]? with
          | none => rw [hb] at hy; simp at hy
          | some d =>
            rw [ha] at hx; rw [hb] at hy
            simp only [List.map_map, List.mem_map, Function.comp] at hx hy
            obtain ⟨_, _, rfl⟩ := hx
            obtain ⟨_, _, rfl⟩ := hy
            exact hab (by simpa using (List.cons.inj e).1)
    · intro js cs h
      cases h with
      | @cons _ _ j js c cs hj hc =>
        refine List.mem_flatMap.2 ⟨j, List.mem_range.2 (List.getElem?_eq_some_iff.1 hj).1, ?_⟩
        rw [hj]
        exact List.mem_map.2 ⟨_, h3 _ _ hc, rfl⟩

/-- Best choices exist. -/
theorem exists_best (lists : List (List Kbest.Cand)) (k : Nat) : ∃ best, BestChoices lists k best := by
  obtain ⟨all, h1, h2, h3⟩ := exists_enum lists
  have hp := List.mergeSort_perm all (fun a b => decide (total a.2 ≤ total b.2))
  have hs : (all.mergeSort (fun a b => decide (total a.2 ≤ total b.2))).Pairwise
      (fun a b => total a.2 ≤ total b.2) := by
    have := List.pairwise_mergeSort (le := fun a b : List Nat × List Kbest.Cand => decide (total a.2 ≤ total b.2))
      (by intro a b c; simp only [decide_eq_true_eq]; exact Rat.le_trans)
      (by intro a b; simp only [Bool.or_eq_true, decide_eq_true_eq]; exact Rat.le_total) all
    exact this.imp (by simp)
  generalize all.mergeSort _ = s at hp hs
  refine ⟨s.take k, ?_, ?_, hs.sublist (List.take_sublist _ _), by rw [List.length_take]; omega, ?_⟩
  · intro b hb
    exact h1 b (hp.mem_iff.1 (List.mem_of_mem_take hb))
  · have : (s.map (·.1)).Nodup := (hp.map _).nodup_iff.2 h2
    exact this.sublist ((List.take_sublist _ _).map _)
  · intro js cs hc hnot
    have hm : (js, cs) ∈ s := hp.mem_iff.2 (h3 _ _ hc)
    rw [← List.take_append_drop k s] at hm hs
    rcases List.mem_append.1 hm with hm | hm
    · exact absurd (List.mem_map.2 ⟨_, hm, rfl⟩) hnot
    · refine ⟨?_, fun b hb => (List.pairwise_append.1 hs).2.2 b hb _ hm⟩
      rw [List.length_take]
      by_cases hk : k ≤ s.length
      · omega
      · rw [List.drop_of_length_le (by omega)] at hm
        simp at hm

theorem mapM_of_forall {α β ε : Type} {f : α → Except ε β} {g : α → β} {l : List α}
    (h : ∀ x ∈ l, f x = .ok (g x)) : l.mapM f = .ok (l.map g) := by
  induction l with
  | nil => rfl
  | cons a l ih =>
    rw [List.mapM_cons, h a (by simp), ih (fun x hx => h x (by simp [hx]))]
    rfl

theorem choice_text {lists : List (List Kbest.Cand)} {js : List Nat} {cs : List Kbest.Cand}
    (h : Choice lists js cs) (ht : ∀ l ∈ lists, ∀ c ∈ l, Text c.1) : ∀ c ∈ cs, Text c.1 := by
  induction h with
  | nil => simp
  | cons hj _ ih =>
    intro c hc
    rcases List.mem_cons.1 hc with rfl | hc
    · exact ht _ (by simp) _ (List.mem_of_getElem? hj)
    · exact ih (fun l hl => ht l (by simp [hl])) c hc

theorem exists_choice (lists : List (List Kbest.Cand)) (h : ∀ l ∈ lists, l ≠ []) :
    ∃ js cs, Choice lists js cs := by
  induction lists with
  | nil => exact ⟨_, _, .nil⟩
  | cons l ls ih =>
    obtain ⟨js, cs, hc⟩ := ih (fun x hx => h x (by simp [hx]))
    cases l with
    | nil => exact absurd rfl (h [] (by simp))
    | cons c l => exact ⟨0 :: js, c :: cs, .cons rfl hc⟩

/-- C37, for at least two parts: rejoining succeeds for a positive `k` when every part has
candidates, and its result lists the `k` least costly combinations in order of cost, each spelled by
the words of its parts separated by single spaces and scored by the sum of their scores.  Missing: a
text with a single part, see `C37_single_part`. -/
theorem C37_rejoin_partial (lists : List (List Kbest.Cand)) (kbest : Int) (h2 : 2 ≤ lists.length)
    (hk : 0 < kbest) (hne : ∀ l ∈ lists, l ≠ []) (ht : ∀ l ∈ lists, ∀ c ∈ l, Text c.1)
    (r : Except Err (List Kbest.Cand)) :
    RejoinedList lists kbest r ↔
    ∃ best out, BestChoices lists kbest.toNat best ∧ r = .ok out ∧ out.length = best.length ∧
      ∀ (i : Nat) (b : List Nat × List Kbest.Cand) (c : Kbest.Cand),
        best[i]? = some b → out[i]? = some c → Joined b.2 c := by
  have run : ∀ best, BestChoices lists kbest.toNat best →
      ∃ out, (match rejoinList lists kbest (best.map (fun b => stepsOf b.1 b.2)) with
        | .error e => (.error e : Except Err (List Kbest.Cand))
        | .ok l => whitespaceNorm l) = .ok out ∧ out.length = best.length ∧
        ∀ (i : Nat) (b : List Nat × List Kbest.Cand) (c : Kbest.Cand),
          best[i]? = some b → out[i]? = some c → Joined b.2 c := by
    intro best hb
    have hpos : 0 < best.length := by
      cases best with
      | cons => simp
      | nil =>
        obtain ⟨js, cs, hc⟩ := exists_choice lists hne
        have := (hb.least js cs hc (by simp)).1
        simp at this; omega
    have hrun : rejoinList lists kbest (best.map (fun b => stepsOf b.1 b.2)) =
        .ok (best.map (fun b => (strJoin [32] (b.2.map (·.1)), total b.2))) := by
      match lists, h2 with
      | l1 :: l2 :: ls, _ =>
        have hemp : (best.map (fun b => stepsOf b.1 b.2)).isEmpty = false := by
          cases best with
          | nil => simp at hpos
          | cons => rfl
        have hk' : ¬ kbest ≤ 0 := by omega
        simp only [rejoinList, hemp, hk', decide_false, Bool.or_self, Bool.false_eq_true, if_false,
          gatherBestCands, List.map_map]
        have : best.map ((fun p : List (Step Rat) => (p.map (·.1)).filter (· > 0)) ∘
            fun b => stepsOf b.1 b.2) = best.map (fun b => b.1.map (· + 1)) := by
          apply List.map_congr_left
          intro b hbm
          exact labels_stepsOf (hb.choice b hbm)
        rw [this, List.mapM_map]
        apply mapM_of_forall
        intro b hbm
        have hc := hb.choice b hbm
        have hl := (choice_length hc).1
        show (if (b.1.map (· + 1)).length ≠ (l1 :: l2 :: ls).length then _ else _) = _
        rw [if_neg (by simp only [List.length_map, hl]; simp), readPath_eq hc]
        simp [Rat.zero_add]
    rw [hrun]
    have htext : ∀ b ∈ best, ∃ wss : List (List Str), b.2.map (fun x => words x.1) = wss.map some ∧
        words (strJoin [32] (b.2.map (·.1))) = some wss.flatten := by
      intro b hbm
      have hc := hb.choice b hbm
      have := (words_strJoin (b.2.map (·.1)) (by
        intro s hs
        obtain ⟨c, hc', rfl⟩ := List.mem_map.1 hs
        exact choice_text hc ht c hc') (by
          have := (choice_length hc).2
          intro e
          rw [List.map_eq_nil_iff] at e
          rw [e] at this
          simp only [List.length_nil] at this; omega)).2
      simpa [List.map_map, Function.comp_def] using this
    refine ⟨best.map (fun b => (strJoin [32] ((words (strJoin [32] (b.2.map (·.1)))).getD []), total b.2)),
      ?_, by simp, ?_⟩
    · simp only [whitespaceNorm]
      rw [List.mapM_map]
      apply mapM_of_forall
      intro b hbm
      obtain ⟨wss, _, h⟩ := htext b hbm
      simp [h]
    · intro i b c hi ho
      rw [List.getElem?_map, hi] at ho
      obtain ⟨wss, h1, h⟩ := htext b (List.mem_of_getElem? hi)
      refine ⟨wss, h1, ?_⟩
      simp only [Option.map_some, Option.some.injEq, h, Option.getD_some] at ho
      exact ho.symm
  constructor
  · rintro ⟨ps, hps, rfl⟩
    obtain ⟨best, hb, rfl⟩ := best_of_shortest hps
    obtain ⟨out, h1, h2, h3⟩ := run best hb
    exact ⟨best, out, hb, h1, h2, h3⟩
  · rintro ⟨best, out, hb, rfl, hl, hj⟩
    obtain ⟨out', h1, h2, h3⟩ := run best hb
    have : out' = out := by
      apply List.ext_getElem?
      intro i
      by_cases hi : i < best.length
      · have hb' := List.getElem?_eq_getElem hi
        have hi1 : i < out'.length := by omega
        have hi2 : i < out.length := by omega
        obtain ⟨w1, e1, c1⟩ := h3 i _ _ hb' (List.getElem?_eq_getElem hi1)
        obtain ⟨w2, e2, c2⟩ := hj i _ _ hb' (List.getElem?_eq_getElem hi2)
        rw [e1] at e2
        have hinj : ∀ (a b : List (List Str)), a.map some = b.map some → a = b := by
          intro a
          induction a with
          | nil => intro b h; cases b <;> simp_all
          | cons x a ih => intro b h; cases b with
            | nil => simp at h
            | cons y b => simp at h; rw [h.1, ih b h.2]
        rw [List.getElem?_eq_getElem hi1, List.getElem?_eq_getElem hi2, c1, c2, hinj _ _ e2]
      · rw [List.getElem?_eq_none (by omega), List.getElem?_eq_none (by omega)]
    subst this
    exact ⟨_, shortest_of_best hb, h1.symm⟩

/-- C37: rejoining has a result for every input. -/
theorem C37_exists (lists : List (List Kbest.Cand)) (kbest : Int) : ∃ r, RejoinedList lists kbest r := by
  obtain ⟨best, hb⟩ := exists_best lists kbest.toNat
  exact ⟨_, _, shortest_of_best hb, rfl⟩

/-- C37 fails for a text with a single part: its candidates are returned as they are, neither
sorted nor cut at `k`. -/
theorem C37_single_part (l : List Kbest.Cand) (kbest : Int) (r : Except Err (List Kbest.Cand)) :
    RejoinedList [l] kbest r ↔ r = whitespaceNorm l := by
  constructor
  · rintro ⟨ps, _, rfl⟩; rfl
  · rintro rfl
    obtain ⟨best, hb⟩ := exists_best [l] kbest.toNat
    exact ⟨_, shortest_of_best hb, rfl⟩

/-- The witness: the best candidate comes last although one candidate was asked for. -/
theorem C37_single_part_unsorted :
    RejoinedList [[([97], 2), ([98], 1)]] 1 (.ok [([97], 2), ([98], 1)]) :=
  (C37_single_part _ _ _).2 rfl

/-- Two parts with two candidates each meet the hypotheses. -/
example : ∀ l ∈ [[([97], 1), ([98, 32, 32, 99], 2)], [([100], 0), ([101], (5 : Rat))]],
    l ≠ [] ∧ ∀ c ∈ l, Text c.1 := by
  intro l hl
  refine ⟨by rintro rfl; simp at hl, ?_⟩
  intro c hc
  have key : ∀ n < 127, Scalar n := fun n h => .inl (by omega)
  simp only [List.mem_cons, List.not_mem_nil, or_false] at hl
  rcases hl with rfl | rfl <;> simp only [List.mem_cons, List.not_mem_nil, or_false] at hc <;>
    rcases hc with rfl | rfl
  · exact ⟨[97], rfl, by simpa using key 97 (by omega)⟩
  · exact ⟨[98, 32, 32, 99], rfl, by intro c h; apply key; simp at h; omega⟩
  · exact ⟨[100], rfl, by simpa using key 100 (by omega)⟩
  · exact ⟨[101], rfl, by simpa using key 101 (by omega)⟩

/-! ## C54 -/

/-- The candidates of one part of a text: the part, its candidates and the number of the text. -/
structure Part where
  input : Str
  cands : List Kbest.Cand
  text : Nat

/-- Input lines of a part. -/
def Part.lines (p : Part) : List (Str × Str × Rat) := p.cands.map (fun c => (p.input, c.1, c.2))

/-- The candidate lists of a text. -/
def partsOf (ps : List Part) (t : Nat) : List (List Kbest.Cand) :=
  (ps.filter (fun p => p.text == t)).map (·.cands)

/-- Greatest number of candidates of a part of a text before `t`, 0 if there is none. -/
def MaxBefore (ps : List Part) (t m : Nat) : Prop :=
  (∀ p ∈ ps, p.text < t → p.cands.length ≤ m) ∧
  (m = 0 ∨ ∃ p ∈ ps, p.text < t ∧ p.cands.length = m)

/-- Parts whose texts are numbered from 0 without gaps, with non-empty inputs different from those of
the neighbours and with at least one candidate each. -/
inductive Numbered : List Part → Prop
  | one (p : Part) : p.text = 0 → p.input ≠ [] → p.cands ≠ [] → Numbered [p]
  | snoc (ps : List Part) (q p : Part) : Numbered (ps ++ [q]) →
      (p.text = q.text ∨ p.text = q.text + 1) → p.input ≠ [] → p.input ≠ q.input → p.cands ≠ [] →
      Numbered (ps ++ [q] ++ [p])

theorem foldl_max (l : List Nat) (m : Nat) :
    let r := l.foldl (fun m n => if n > m then n else m) m
    m ≤ r ∧ (∀ n ∈ l, n ≤ r) ∧ (r = m ∨ r ∈ l) := by
  induction l generalizing m with
  | nil => simp
  | cons a l ih =>
    simp only [List.foldl_cons]
    obtain ⟨h1, h2, h3⟩ := ih (if a > m then a else m)
    generalize l.foldl _ _ = r at h1 h2 h3 ⊢
    by_cases h : a > m
    · simp only [h, if_true] at h1 h3
      refine ⟨by omega, ?_, ?_⟩
      · intro n hn; rcases List.mem_cons.1 hn with rfl | hn
        · exact h1
        · exact h2 n hn
      · rcases h3 with h3 | h3
        · right; simp [h3]
        · right; simp [h3]
    · simp only [h, if_false] at h1 h3
      refine ⟨h1, ?_, ?_⟩
      · intro n hn; rcases List.mem_cons.1 hn with rfl | hn
        · omega
        · exact h2 n hn
      · rcases h3 with h3 | h3
        · left; exact h3
        · right; simp [h3]

theorem rest_lines (idx : List Nat) (st : Rejoiner) (i : Str) (cs : List Kbest.Cand)
    (h : st.lastInput = i) :
    (cs.map (fun c => (i, c.1, c.2))).foldlM (rejoinerStep idx) st =
      .ok { st with last := st.last ++ cs } := by
  induction cs generalizing st with
  | nil => simp [pure, Except.pure]
  | cons c cs ih =>
    have h1 : rejoinerStep idx st (i, c.1, c.2) = .ok { st with last := st.last ++ [c], lastInput := i } := by
      simp [rejoinerStep, h]
    rw [List.map_cons, List.foldlM_cons, h1]
    show List.foldlM (rejoinerStep idx) _ _ = _
    rw [ih _ rfl]
    simp [h]

theorem numbered_last {ps : List Part} {q : Part} (h : Numbered (ps ++ [q])) :
    (∀ p ∈ ps ++ [q], p.text ≤ q.text) ∧ q.input ≠ [] ∧ q.cands ≠ [] := by
  generalize hl : ps ++ [q] = l at h
  induction h generalizing ps q with
  | one p h1 h2 h3 =>
    have : ps = [] ∧ q = p := by
      cases ps with
      | nil => simpa using hl
      | cons a ps => simp at hl
    obtain ⟨rfl, rfl⟩ := this
    exact ⟨by simp, h2, h3⟩
  | snoc ps' q' p hn hor h2 h4 h3 ih =>
    have := List.append_inj' hl rfl
    obtain ⟨rfl, hq⟩ := this
    have hq : q = p := by simpa using hq
    subst hq
    refine ⟨?_, h2, h3⟩
    intro x hx
    obtain ⟨h5, _⟩ := ih rfl
    rcases List.mem_append.1 hx with hx | hx
    · have := h5 x hx; omega
    · simp at hx; subst hx; exact Nat.le_refl _

theorem partsOf_snoc (ps : List Part) (p : Part) (t : Nat) :
    partsOf (ps ++ [p]) t = partsOf ps t ++ (if p.text = t then [p.cands] else []) := by
  unfold partsOf
  rw [List.filter_append, List.map_append]
  congr 1
  by_cases h : p.text = t <;> simp [h]

theorem numbered_steps {ps : List Part} (h : Numbered ps) :
    ((ps.map (·.text)).zip ((ps.map (·.text)).drop 1)).all
      (fun p => decide (p.1 ≤ p.2 ∧ p.2 ≤ p.1 + 1)) = true := by
  rw [List.all_eq_true]
  intro x hx
  obtain ⟨i, hi⟩ := List.mem_iff_getElem?.1 hx
  have hz := List.getElem?_zip_eq_some.1 hi
  rw [List.getElem?_drop] at hz
  clear hx hi
  suffices ∀ (i : Nat) (a b : Nat), (ps.map (·.text))[i]? = some a → (ps.map (·.text))[1 + i]? = some b →
      a ≤ b ∧ b ≤ a + 1 by
    simpa using this i _ _ hz.1 hz.2
  clear hz i x
  induction h with
  | one p _ _ _ => intro i a b _ hb; simp [Nat.add_comm 1 i] at hb
  | snoc ps q p hn hor h2 h4 h3 ih =>
    intro i a b ha hb
    rw [List.map_append] at ha hb
    by_cases hl : 1 + i < (ps ++ [q]).length
    · rw [List.getElem?_append_left (by simpa using hl)] at hb
      rw [List.getElem?_append_left (by simp at hl ⊢; omega)] at ha
      exact ih i a b ha hb
    · have h1 : 1 + i < ((ps ++ [q]).map (·.text) ++ [p].map (·.text)).length :=
        (List.getElem?_eq_some_iff.1 hb).1
      simp only [List.length_append, List.length_map, List.length_cons, List.length_nil] at h1 hl
      have hi : i = ps.length := by omega
      subst hi
      have ha' : a = q.text := by
        rw [List.getElem?_append_left (by simp)] at ha
        simpa using ha.symm
      have hb' : b = p.text := by
        rw [List.getElem?_append_right (by simp; omega)] at hb
        have : 1 + ps.length - (List.map (fun x => x.text) (ps ++ [q])).length = 0 := by simp; omega
        rw [this] at hb
        simpa using hb.symm
      omega

/-- State after the lines of some parts. -/
theorem rejoiner_run {ps : List Part} {q : Part} (h : Numbered (ps ++ [q])) (suffix : List Nat) :
    ∃ st : Rejoiner, ((ps ++ [q]).flatMap Part.lines).foldlM
        (rejoinerStep ((ps ++ [q]).map (·.text) ++ suffix)) {} = .ok st ∧
      st.done = (List.range q.text).map (partsOf (ps ++ [q])) ∧
      st.init ++ [st.last] = partsOf (ps ++ [q]) q.text ∧ st.lastInput = q.input ∧
      st.outputIdx = ps.length ∧ MaxBefore (ps ++ [q]) q.text st.maxKbest := by
  generalize hl : ps ++ [q] = l at h
  induction h generalizing ps q suffix with
  | one p h1 h2 h3 =>
    have : ps = [] ∧ q = p := by
      cases ps with
      | nil => simpa using hl
      | cons a ps => simp at hl
    obtain ⟨rfl, rfl⟩ := this
    obtain ⟨input, cands, text⟩ := q
    simp only at h1 h2 h3
    subst h1
    cases cands with
    | nil => exact absurd rfl h3
    | cons c cs =>
      simp only [List.flatMap_cons, List.flatMap_nil, List.append_nil, Part.lines, List.map_cons,
        List.foldlM_cons]
      have e : rejoinerStep ([0] ++ suffix) {} (input, c.1, c.2) =
          .ok { last := [c], lastInput := input } := by simp [rejoinerStep]
      simp only [List.map_nil] 
      rw [e]
      refine ⟨_, rest_lines _ _ input cs rfl, ?_⟩
      refine ⟨rfl, by simp [partsOf], rfl, rfl, by simp, .inl rfl⟩
  | snoc ps' q' p hn hor h2 h4 h3 ih =>
    obtain ⟨rfl, hq⟩ := List.append_inj' hl rfl
    have hq : q = p := by simpa using hq
    subst hq
    obtain ⟨st, hrun, hd, hi, hli, ho, hm⟩ := ih (suffix := q.text :: suffix) rfl
    have hidx : (ps' ++ [q']).map (·.text) ++ q.text :: suffix =
        (ps' ++ [q'] ++ [q]).map (·.text) ++ suffix := by simp
    rw [hidx] at hrun
    rw [List.flatMap_append, List.foldlM_append, hrun]
    show ∃ st', List.foldlM _ st _ = _ ∧ _
    obtain ⟨hle, hqi, _⟩ := numbered_last hn
    have hq'le : ∀ x ∈ ps' ++ [q'], x.text ≤ q'.text := hle
    have ha : ((ps' ++ [q'] ++ [q]).map (·.text) ++ suffix)[st.outputIdx]? = some q'.text := by
      rw [ho]; simp
    have hb : ((ps' ++ [q'] ++ [q]).map (·.text) ++ suffix)[st.outputIdx + 1]? = some q.text := by
      rw [ho]
      rw [List.getElem?_append_left (by simp)]
      simp
    have hlen : st.outputIdx < ((ps' ++ [q'] ++ [q]).map (·.text) ++ suffix).length - 1 := by
      rw [ho]; simp
    have hne : ((ps' ++ [q'] ++ [q]).map (·.text) ++ suffix).isEmpty = false := by
      cases ps' <;> rfl
    have hli' : st.lastInput.isEmpty = false := by
      rw [hli]; cases h : q'.input with
      | nil => exact absurd h hqi
      | cons => rfl
    have hdiff : (q.input != st.lastInput) = true := by
      rw [hli]; simpa using h4
    obtain ⟨input, cands, text⟩ := q
    simp only at hor h2 h3 h4 ha hb hlen hne hdiff ⊢
    cases cands with
    | nil => exact absurd rfl h3
    | cons c cs =>
      simp only [List.flatMap_cons, List.flatMap_nil, List.append_nil, Part.lines, List.map_cons,
        List.foldlM_cons]
      rcases hor with rfl | rfl
      · have e : rejoinerStep (List.map Part.text (ps' ++ [q'] ++ [⟨input, c :: cs, q'.text⟩]) ++ suffix) st
            (input, c.1, c.2) = .ok { st with init := st.init ++ [st.last], last := [c]
                                              lastInput := input, outputIdx := st.outputIdx + 1 } := by
          unfold rejoinerStep
          simp only [hli', hdiff, hne, hlen, ha, hb, decide_true, Bool.not_true, Bool.not_false,
            Bool.and_self, Bool.and_false, Bool.false_eq_true, if_false, if_true, ne_eq,
            not_true_eq_false]
        rw [e]
        refine ⟨_, rest_lines _ _ input cs rfl, ?_, ?_, rfl, ?_, ?_⟩
        · simp only [hd]
          apply List.map_congr_left
          intro g hg
          rw [partsOf_snoc (ps' ++ [q'])]
          have : ¬ q'.text = g := by have := List.mem_range.1 hg; omega
          simp [this]
        · rw [partsOf_snoc (ps' ++ [q']), ← hi]; simp
        · simp only [ho]; simp
        · refine ⟨?_, ?_⟩
          · intro x hx hlt
            rcases List.mem_append.1 hx with hx | hx
            · exact hm.1 x hx hlt
            · simp at hx; subst hx; simp at hlt
          · rcases hm.2 with h | ⟨x, hx, h⟩
            · exact .inl h
            · exact .inr ⟨x, List.mem_append_left _ hx, h⟩
      · have e : rejoinerStep (List.map Part.text (ps' ++ [q'] ++ [⟨input, c :: cs, q'.text + 1⟩]) ++ suffix) st
            (input, c.1, c.2) = .ok { done := st.done ++ [st.init ++ [st.last]], init := [], last := [c]
                                      lastInput := input, outputIdx := st.outputIdx + 1
                                      maxKbest := ((st.init ++ [st.last]).map List.length).foldl
                                        (fun m n => if n > m then n else m) st.maxKbest } := by
          have hne' : ¬ q'.text = q'.text + 1 := by omega
          unfold rejoinerStep
          simp only [hli', hdiff, hne, hlen, ha, hb, decide_true, Bool.not_true, Bool.not_false,
            Bool.and_self, Bool.and_false, Bool.false_eq_true, if_false, if_true, ne_eq,
            hne', not_false_eq_true]
        rw [e]
        have hno : partsOf (ps' ++ [q']) (q'.text + 1) = [] := by
          unfold partsOf
          rw [List.map_eq_nil_iff, List.filter_eq_nil_iff]
          intro x hx
          have := hq'le x hx
          simp; omega
        refine ⟨_, rest_lines _ _ input cs rfl, ?_, ?_, rfl, ?_, ?_⟩
        · simp only [hd, hi]
          rw [List.range_succ, List.map_append]
          congr 1
          · apply List.map_congr_left
            intro g hg
            rw [partsOf_snoc (ps' ++ [q'])]
            have : ¬ q'.text + 1 = g := by have := List.mem_range.1 hg; omega
            simp [this]
          · simp only [List.map_cons, List.map_nil]
            rw [partsOf_snoc (ps' ++ [q'])]
            have : ¬ q'.text + 1 = q'.text := by omega
            simp [this]
        · rw [partsOf_snoc (ps' ++ [q']), hno]; simp
        · simp only [ho]; simp
        · simp only [hi]
          have hf := foldl_max ((partsOf (ps' ++ [q']) q'.text).map List.length) st.maxKbest
          simp only at hf
          generalize List.foldl _ _ _ = r at hf ⊢
          obtain ⟨f1, f2, f3⟩ := hf
          refine ⟨?_, ?_⟩
          · intro x hx hlt
            rcases List.mem_append.1 hx with hx | hx
            · by_cases hxt : x.text = q'.text
              · apply f2
                refine List.mem_map.2 ⟨x.cands, ?_, rfl⟩
                exact List.mem_map.2 ⟨x, List.mem_filter.2 ⟨hx, by simpa using hxt⟩, rfl⟩
              · have := hm.1 x hx (by omega); omega
            · simp at hx; subst hx; simp at hlt
          · rcases f3 with rfl | f3
            · rcases hm.2 with h | ⟨x, hx, h, h'⟩
              · exact .inl h
              · exact .inr ⟨x, List.mem_append_left _ hx, by omega, h'⟩
            · obtain ⟨y, hy, rfl⟩ := List.mem_map.1 f3
              obtain ⟨x, hx, rfl⟩ := List.mem_map.1 hy
              obtain ⟨hx, ht⟩ := List.mem_filter.1 hx
              exact .inr ⟨x, List.mem_append_left _ hx, by simp at ht; omega, rfl⟩

/-- C54: reading the candidate lines of numbered parts groups the candidates by part and the parts by
text.  The number of results is the one asked for; if none is asked for, it is the greatest number of
candidates of the parts of all texts but the last.  The property wants the parts of the last text
counted too, see `C54_default_k`. -/
theorem C54_groups_partial (ps : List Part) (q : Part) (h : Numbered (ps ++ [q])) (kbest : Int) :
    ∃ k, initRejoiner ((ps ++ [q]).flatMap Part.lines) ((ps ++ [q]).map (·.text)) kbest =
        .ok ((List.range (q.text + 1)).map (partsOf (ps ++ [q])), k) ∧
      (0 < kbest → k = kbest) ∧ (kbest ≤ 0 → 0 ≤ k ∧ MaxBefore (ps ++ [q]) q.text k.toNat) := by
  obtain ⟨st, hrun, hd, hi, hli, ho, hm⟩ := rejoiner_run h []
  rw [List.append_nil] at hrun
  have hne : ((ps ++ [q]).flatMap Part.lines).isEmpty = false := by
    have := (numbered_last h).2.2
    rw [List.flatMap_append]
    cases hc : q.cands with
    | nil => exact absurd hc this
    | cons c cs => simp [Part.lines, hc]
  have hlast : ((ps ++ [q]).map (·.text)).getLast? = some q.text := by simp
  have hlists : st.done ++ [st.init ++ [st.last]] = (List.range (q.text + 1)).map (partsOf (ps ++ [q])) := by
    rw [hd, hi, List.range_succ, List.map_append]; rfl
  refine ⟨if kbest > 0 then kbest else (st.maxKbest : Int), ?_, ?_, ?_⟩
  · unfold initRejoiner
    simp only [numbered_steps h, Bool.not_true, Bool.false_eq_true, if_false, hne, hrun, hlast, hlists,
      List.length_map, List.length_range, ne_eq, not_true_eq_false]
  · intro hk; rw [if_pos hk]
  · intro hk
    rw [if_neg (by omega)]
    exact ⟨Int.natCast_nonneg _, by simpa using hm⟩

/-- Two parts of one text, with two and one candidates. -/
def oneText : List Part := [⟨[97], [([120], 1), ([121], 2)], 0⟩, ⟨[98], [([122], 0)], 0⟩]

/-- C54 fails: with a single text and no number of results asked for, the number is 0 although there
are candidates, and rejoining reads out of range. -/
theorem C54_default_k :
    initRejoiner (oneText.flatMap Part.lines) (oneText.map (·.text)) (-1) = .ok ([partsOf oneText 0], 0) ∧
    ∀ r, RejoinedList (partsOf oneText 0) 0 r ↔ r = .error .outOfRange := by
  refine ⟨by rfl, ?_⟩
  intro r
  constructor
  · rintro ⟨ps, _, rfl⟩; rfl
  · rintro rfl
    obtain ⟨best, hb⟩ := exists_best (partsOf oneText 0) 0
    exact ⟨_, shortest_of_best hb, rfl⟩

/-- Two texts, the first in two parts. -/
example : Numbered ([⟨[97], [([120], 1), ([121], 2)], 0⟩] ++ [⟨[98], [([122], 0)], 0⟩] ++
    [⟨[97], [([120], 1)], 1⟩]) :=
  .snoc _ _ _ (.snoc [] _ _ (.one _ rfl (by simp) (by simp)) (.inl rfl) (by simp) (by simp) (by simp))
    (.inr rfl) (by simp) (by simp) (by simp)

end Nisaba.Props
