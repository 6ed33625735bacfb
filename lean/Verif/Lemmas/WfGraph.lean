import Verif.Lemmas.VisualFst
import Verif.Lemmas.NfcBrahmic
/-!
# Token graphs

A token graph reads a text as a sequence of table entries.  The main result is `ruleOk_keeps`:
a finite check on the graph shows that replacing one string by another never leads out of the
language, whatever stands around it.
-/
namespace Nisaba

/-- A graph with nodes `Nat`; 0 is the initial and the final node. -/
structure Gram where
  /-- Nodes reachable without reading anything, including the node itself. -/
  eps : Nat → List Nat
  /-- Edges: the entries of a table and the node they lead to. -/
  out : Nat → List (List Rule × Nat)

/-- `y` can be read from node `n` to the end. -/
inductive Acc (G : Gram) : Nat → Str → Prop
  | nil {n : Nat} : 0 ∈ G.eps n → Acc G n []
  | cons {n m : Nat} {e : List Rule × Nat} {p : Rule} {s : Str} : m ∈ G.eps n → e ∈ G.out m →
      p ∈ e.1 → Acc G e.2 s → Acc G n (p.1 ++ s)

/-- Laws of `eps`. -/
structure Gram.Closed (G : Gram) : Prop where
  refl : ∀ n, n ∈ G.eps n
  trans : ∀ {n m k}, m ∈ G.eps n → k ∈ G.eps m → k ∈ G.eps n
  nonempty : ∀ {n e p}, e ∈ G.out n → p ∈ e.1 → p.1 ≠ []

theorem Acc.eps {G : Gram} (hG : G.Closed) {n m : Nat} (h : m ∈ G.eps n) {s : Str}
    (hs : Acc G m s) : Acc G n s := by
  cases hs with
  | nil h0 => exact Acc.nil (hG.trans h h0)
  | cons h1 h2 h3 h4 => exact Acc.cons (hG.trans h h1) h2 h3 h4

/-- Result of comparing a token with a text. -/
inductive Strip where
  | rest (s : Str)
  | pending (t : Str)
  | no

/-- Removes the token from the text, or the text from the token. -/
def strip : Str → Str → Strip
  | [], s => .rest s
  | t@(_ :: _), [] => .pending t
  | a :: t, b :: s => bif Nat.beq a b then strip t s else .no

theorem strip_spec (t s : Str) : match strip t s with
    | .rest r => s = t ++ r
    | .pending p => t = s ++ p ∧ p ≠ []
    | .no => ¬ t <+: s ∧ ¬ s <+: t := by
  induction t generalizing s with
  | nil => cases s <;> simp [strip]
  | cons a t ih =>
    cases s with
    | nil => simp [strip]
    | cons b s =>
      simp only [strip]
      by_cases h : Nat.beq a b = true
      · have e := Nat.eq_of_beq_eq_true h
        subst e
        simp only [h, cond_true]
        have := ih s
        split at this <;> simp_all [List.cons_prefix_cons]
      · simp only [Bool.eq_false_iff.2 h, cond_false, List.cons_prefix_cons]
        have : a ≠ b := fun e => h (by rw [e]; exact Nat.beq_refl b)
        exact ⟨fun h => this h.1, fun h => this h.1.symm⟩

/-- Configurations: what is still to be read of the current token, and the node behind it. -/
abbrev Config := Str × Nat

/-- Configurations after reading a text from a node.  The first argument bounds the number of
tokens. -/
def afterStep (rec : Nat → Str → List Config) (s : Str) (dst : Nat) (t : Str) : List Config :=
  match strip t s with
  | .rest r => rec dst r
  | .pending p => [(p, dst)]
  | .no => []

def after (G : Gram) : Nat → Nat → Str → List Config
  | _, n, [] => [([], n)]
  | 0, _, _ :: _ => []
  | f + 1, n, c :: s =>
    (G.eps n).flatMap fun m => (G.out m).flatMap fun e => e.1.flatMap fun p =>
      afterStep (after G f) (c :: s) e.2 p.1

/-- The text can be read from the configuration. -/
def Cont (G : Gram) (c : Config) (y : Str) : Prop := ∃ z, y = c.1 ++ z ∧ Acc G c.2 z

theorem after_sound {G : Gram} (f : Nat) {n : Nat} {u y : Str} {c : Config}
    (hc : c ∈ after G f n u) (h : Cont G c y) : Acc G n (u ++ y) := by
  induction f generalizing n u with
  | zero =>
    cases u with
    | nil =>
      simp only [after, List.mem_singleton] at hc
      subst hc
      obtain ⟨z, rfl, hz⟩ := h
      exact hz
    | cons a u => simp [after] at hc
  | succ f ih =>
    cases u with
    | nil =>
      simp only [after, List.mem_singleton] at hc
      subst hc
      obtain ⟨z, rfl, hz⟩ := h
      exact hz
    | cons a u =>
      simp only [after, List.mem_flatMap] at hc
      obtain ⟨m, hm, e, he, p, hp, hc⟩ := hc
      unfold afterStep at hc
      have hs := strip_spec p.1 (a :: u)
      split at hc
      · rename_i r hr
        rw [hr] at hs
        simp only at hs
        rw [hs, List.append_assoc]
        exact Acc.cons hm he hp (ih hc)
      · rename_i q hq
        rw [hq] at hs
        simp only [List.mem_singleton] at hc
        subst hc
        obtain ⟨z, rfl, hz⟩ := h
        have := Acc.cons hm he hp hz
        rw [hs.1, List.append_assoc] at this
        exact this
      · simp at hc

theorem after_complete {G : Gram} (hG : G.Closed) {f n : Nat} {u y : Str} (hf : u.length ≤ f)
    (h : Acc G n (u ++ y)) : ∃ c ∈ after G f n u, Cont G c y := by
  induction f generalizing n u with
  | zero =>
    cases u with
    | nil => exact ⟨([], n), by simp [after], y, rfl, h⟩
    | cons a u => simp at hf
  | succ f ih =>
    cases u with
    | nil => exact ⟨([], n), by simp [after], y, rfl, h⟩
    | cons a u =>
      generalize hw : (a :: u) ++ y = w at h
      cases h with
      | nil => simp at hw
      | @cons _ m e p s hm he hp hs =>
        have hne := hG.nonempty he hp
        rcases List.append_eq_append_iff.1 hw with ⟨q, h1, h2⟩ | ⟨q, h1, h2⟩
        · by_cases hq : q = []
          · subst hq
            simp only [List.append_nil] at h1
            simp only [List.nil_append] at h2
            have hst := strip_spec p.1 (a :: u)
            obtain ⟨c, hc, hc'⟩ := ih (u := []) (n := e.2) (by simp)
              (by rw [h2]; exact hs)
            refine ⟨c, ?_, hc'⟩
            simp only [after, List.mem_flatMap]
            refine ⟨m, hm, e, he, p, hp, ?_⟩
            unfold afterStep
            split
            · rename_i r hr
              rw [hr, h1] at hst
              have : r = [] := by simpa using hst
              rw [this]; exact hc
            · rename_i r hr
              rw [hr, h1] at hst
              exact absurd (by simpa using hst.1) hst.2
            · rename_i hr
              rw [hr, h1] at hst
              exact absurd (List.prefix_refl _) hst.1
          · refine ⟨(q, e.2), ?_, s, h2, hs⟩
            simp only [after, List.mem_flatMap]
            refine ⟨m, hm, e, he, p, hp, ?_⟩
            have hst := strip_spec p.1 (a :: u)
            unfold afterStep
            split
            · rename_i r hr
              rw [hr, h1] at hst
              have := congrArg List.length hst
              simp only [List.length_append] at this
              have : q.length = 0 := by omega
              exact absurd (List.length_eq_zero_iff.1 this) hq
            · rename_i r hr
              rw [hr, h1] at hst
              have : q = r := List.append_cancel_left hst.1
              simp [this]
            · rename_i hr
              rw [hr, h1] at hst
              exact absurd (List.prefix_append _ _) hst.2
        · have hl : q.length ≤ f := by
            have := congrArg List.length h1
            have h3 := List.length_pos_iff.2 hne
            simp only [List.length_append, List.length_cons] at this hf
            omega
          obtain ⟨c, hc, hc'⟩ := ih hl (by rw [← h2]; exact hs)
          refine ⟨c, ?_, hc'⟩
          simp only [after, List.mem_flatMap]
          refine ⟨m, hm, e, he, p, hp, ?_⟩
          have hst := strip_spec p.1 (a :: u)
          unfold afterStep
          split
          · rename_i r hr
            rw [hr, h1] at hst
            have : q = r := List.append_cancel_left hst
            rw [← this]; exact hc
          · rename_i r hr
            rw [hr, h1] at hst
            have := congrArg List.length hst.1
            have h3 := List.length_pos_iff.2 hst.2
            simp only [List.length_append] at this
            omega
          · rename_i hr
            rw [hr, h1] at hst
            exact absurd (List.prefix_append _ _) hst.1

def memN (c : Nat) (l : List Nat) : Bool := l.any (Nat.beq c)

theorem memN_iff {c : Nat} {l : List Nat} : memN c l = true ↔ c ∈ l := by
  simp only [memN, List.any_eq_true]
  exact ⟨fun ⟨x, h, e⟩ => by rwa [Nat.eq_of_beq_eq_true e], fun h => ⟨c, h, Nat.beq_refl c⟩⟩

/-- Sufficient condition for: everything readable from `c` is readable from `c'`. -/
def leConfig (G : Gram) (c c' : Config) : Bool :=
  (strEq c.1 c'.1 && memN c.2 (G.eps c'.2)) ||
  (c'.1.isEmpty && (after G c.1.length c'.2 c.1).any fun b => b.1.isEmpty && memN c.2 (G.eps b.2))

theorem leConfig_spec {G : Gram} (hG : G.Closed) {c c' : Config} (h : leConfig G c c' = true)
    {y : Str} (hy : Cont G c y) : Cont G c' y := by
  obtain ⟨z, rfl, hz⟩ := hy
  simp only [leConfig, Bool.or_eq_true, Bool.and_eq_true, List.any_eq_true, List.isEmpty_iff,
    strEq_iff, memN_iff] at h
  rcases h with ⟨h1, h2⟩ | ⟨h1, b, hb, h2, h3⟩
  · exact ⟨z, by rw [h1], hz.eps hG h2⟩
  · refine ⟨c.1 ++ z, by rw [h1]; rfl, after_sound _ hb ⟨z, by rw [h2]; rfl, hz.eps hG h3⟩⟩

/-! ## Places where a replacement can start -/

/-- Non-empty proper prefixes. -/
def properPrefixes : Str → List Str
  | [] => []
  | [_] => []
  | a :: b :: t => [a] :: (properPrefixes (b :: t)).map (a :: ·)

theorem mem_properPrefixes {t w : Str} (hw : w ≠ []) {v : Str} (hv : v ≠ []) (h : t = w ++ v) :
    w ∈ properPrefixes t := by
  induction w generalizing t with
  | nil => exact absurd rfl hw
  | cons a w ih =>
    subst h
    cases hwv : w ++ v with
    | nil => simp at hwv; exact absurd hwv.2 hv
    | cons b t =>
      simp only [List.cons_append, hwv, properPrefixes, List.mem_cons, List.mem_map]
      by_cases hw' : w = []
      · left; rw [hw']
      · right; exact ⟨w, ih hw' hwv.symm, rfl⟩

/-- Distinct strings. -/
def dedupStr : List Str → List Str
  | [] => []
  | c :: s => bif s.any (strEq c) then dedupStr s else c :: dedupStr s

theorem mem_dedupStr {c : Str} {s : List Str} : c ∈ dedupStr s ↔ c ∈ s := by
  induction s with
  | nil => simp [dedupStr]
  | cons d s ih =>
    simp only [dedupStr, Bool.cond_eq_ite]
    split
    · rename_i h
      simp only [List.any_eq_true] at h
      obtain ⟨e, he, hde⟩ := h
      have : d = e := strEq_iff.1 hde
      subst this
      simp only [List.mem_cons, ih]
      exact ⟨Or.inr, fun h => h.elim (fun e => e ▸ he) id⟩
    · simp [ih]

/-- Beginnings of tokens of an edge list. -/
def beginnings (es : List (List Rule × Nat)) : List Str :=
  es.flatMap fun e => e.1.flatMap fun p => properPrefixes p.1

/-- Beginnings of the texts readable from `n`, up to the next node other than `bad`. -/
def prefixesFrom (G : Gram) (bad n : Nat) : List Str :=
  [] :: (G.out n).flatMap fun e => e.1.flatMap fun p =>
    properPrefixes p.1 ++
    bif Nat.beq e.2 bad then p.1 :: (beginnings (G.out bad)).map (p.1 ++ ·) else []

/-- `bad` is left by every edge, and reached only by edges. -/
structure Gram.Bad (G : Gram) (bad : Nat) : Prop where
  eps : G.eps bad = [bad]
  notEps : ∀ {n}, n ≠ bad → bad ∉ G.eps n
  leave : ∀ {e}, e ∈ G.out bad → e.2 ≠ bad
  zero : bad ≠ 0

/-- Every beginning of a text that is read from node 0 ends with a beginning of a few tokens. -/
theorem exists_start {G : Gram} (hG : G.Closed) {bad : Nat} (hB : G.Bad bad)
    (N : Nat) {n : Nat} {x₀ x z : Str} (hN : x.length ≤ N) (hn : n ≠ bad)
    (hr : ∀ y, Acc G n y → Acc G 0 (x₀ ++ y)) (h : Acc G n (x ++ z)) :
    ∃ x₁ w m, x₀ ++ x = x₁ ++ w ∧ m ≠ bad ∧ w ∈ prefixesFrom G bad m ∧
      (∀ y, Acc G m y → Acc G 0 (x₁ ++ y)) ∧ Acc G m (w ++ z) := by
  induction N generalizing n x₀ x with
  | zero =>
    have : x = [] := List.length_eq_zero_iff.1 (by omega)
    subst this
    exact ⟨x₀, [], n, rfl, hn, by simp [prefixesFrom], hr, h⟩
  | succ N ih =>
    by_cases hx : x = []
    · subst hx
      exact ⟨x₀, [], n, rfl, hn, by simp [prefixesFrom], hr, h⟩
    · generalize hw : x ++ z = w at h
      have hsave := h
      cases h with
      | nil => simp at hw; exact absurd hw.1 hx
      | @cons _ m e p s hm he hp hs =>
        have hne := hG.nonempty he hp
        have hmb : m ≠ bad := fun e => hB.notEps hn (e ▸ hm)
        have hrm : ∀ y, Acc G m y → Acc G 0 (x₀ ++ y) := fun y hy => hr y (hy.eps hG hm)
        have hfrom : Acc G m (p.1 ++ s) := Acc.cons (hG.refl m) he hp hs
        rcases List.append_eq_append_iff.1 hw with ⟨q, h1, h2⟩ | ⟨q, h1, h2⟩
        · by_cases hq : q = []
          · subst hq
            simp only [List.append_nil] at h1
            simp only [List.nil_append] at h2
            by_cases hb : e.2 = bad
            · refine ⟨x₀, x, m, rfl, hmb, ?_, hrm, by rw [hw]; exact hfrom⟩
              simp only [prefixesFrom, List.mem_cons, List.mem_flatMap, List.mem_append]
              refine Or.inr ⟨e, he, p, hp, Or.inr ?_⟩
              simp [hb, h1]
            · refine ⟨x₀ ++ x, [], e.2, by simp, hb, by simp [prefixesFrom], ?_, ?_⟩
              · intro y hy
                rw [List.append_assoc, ← h1]
                exact hrm _ (Acc.cons (hG.refl m) he hp hy)
              · rw [List.nil_append, h2]; exact hs
          · refine ⟨x₀, x, m, rfl, hmb, ?_, hrm, by rw [hw]; exact hfrom⟩
            simp only [prefixesFrom, List.mem_cons, List.mem_flatMap, List.mem_append]
            exact Or.inr ⟨e, he, p, hp, Or.inl (mem_properPrefixes hx hq h1)⟩
        · have hl : q.length ≤ N := by
            have := congrArg List.length h1
            have h3 := List.length_pos_iff.2 hne
            simp only [List.length_append] at this
            omega
          have hre : ∀ y, Acc G e.2 y → Acc G 0 ((x₀ ++ p.1) ++ y) := by
            intro y hy
            rw [List.append_assoc]
            exact hrm _ (Acc.cons (hG.refl m) he hp hy)
          by_cases hb : e.2 = bad
          · -- through the node `bad`
            by_cases hq : q = []
            · subst hq
              simp only [List.append_nil] at h1
              refine ⟨x₀, x, m, rfl, hmb, ?_, hrm, by rw [hw]; exact hfrom⟩
              simp only [prefixesFrom, List.mem_cons, List.mem_flatMap, List.mem_append]
              refine Or.inr ⟨e, he, p, hp, Or.inr ?_⟩
              simp [hb, h1]
            · rw [h2] at hs
              generalize hw2 : q ++ z = w2 at hs
              cases hs with
              | nil => simp at hw2; exact absurd hw2.1 hq
              | @cons _ m' e' p' s' hm' he' hp' hs' =>
                have hm2 : m' = bad := by
                  rw [hb, hB.eps] at hm'; simpa using hm'
                subst hm2
                have hne' := hG.nonempty he' hp'
                have hb' := hB.leave he'
                have hre' : ∀ y, Acc G e'.2 y → Acc G 0 ((x₀ ++ p.1 ++ p'.1) ++ y) := by
                  intro y hy
                  rw [List.append_assoc]
                  refine hre _ ?_
                  rw [hb]
                  exact Acc.cons (hG.refl _) he' hp' hy
                rcases List.append_eq_append_iff.1 hw2 with ⟨q', h1', h2'⟩ | ⟨q', h1', h2'⟩
                · by_cases hq' : q' = []
                  · subst hq'
                    simp only [List.append_nil] at h1'
                    simp only [List.nil_append] at h2'
                    refine ⟨x₀ ++ x, [], e'.2, by simp, hb', by simp [prefixesFrom], ?_, ?_⟩
                    · intro y hy
                      have := hre' y hy
                      rw [h1, ← h1', ← List.append_assoc]; exact this
                    · rw [List.nil_append, h2']; exact hs'
                  · refine ⟨x₀, x, m, rfl, hmb, ?_, hrm, ?_⟩
                    · simp only [prefixesFrom, List.mem_cons, List.mem_flatMap, List.mem_append]
                      refine Or.inr ⟨e, he, p, hp, Or.inr ?_⟩
                      simp only [hb, Nat.beq_refl, cond_true, List.mem_cons, List.mem_map]
                      refine Or.inr ⟨q, ?_, h1.symm⟩
                      simp only [beginnings, List.mem_flatMap]
                      exact ⟨e', he', p', hp', mem_properPrefixes hq hq' h1'⟩
                    · rw [h1, List.append_assoc, hw2]
                      refine Acc.cons (hG.refl m) he hp ?_
                      rw [hb]
                      exact Acc.cons (hG.refl _) he' hp' hs'
                · have hl' : q'.length ≤ N := by
                    have := congrArg List.length h1'
                    simp only [List.length_append] at this
                    omega
                  obtain ⟨x₁, w', k, e1, e2, e3, e4, e5⟩ :=
                    ih hl' hb' hre' (by rw [← h2']; exact hs')
                  refine ⟨x₁, w', k, ?_, e2, e3, e4, e5⟩
                  rw [← e1, h1, h1']; simp
          · obtain ⟨x₁, w', k, e1, e2, e3, e4, e5⟩ := ih hl hb hre (by rw [← h2]; exact hs)
            refine ⟨x₁, w', k, ?_, e2, e3, e4, e5⟩
            rw [← e1, h1]; simp

/-! ## The check of one rule -/

/-- Configurations after reading a text from a configuration. -/
def contAfter (G : Gram) (f : Nat) (s : Str) (c : Config) : List Config :=
  match c.1 with
  | [] => after G f c.2 s
  | _ :: _ => afterStep (after G f) s c.2 c.1

theorem contAfter_sound {G : Gram} {f : Nat} {s y : Str} {a c : Config}
    (hc : c ∈ contAfter G f s a) (h : Cont G c y) : Cont G a (s ++ y) := by
  unfold contAfter at hc
  split at hc
  · rename_i ha
    exact ⟨s ++ y, by rw [ha]; rfl, after_sound f hc h⟩
  · unfold afterStep at hc
    have hs := strip_spec a.1 s
    split at hc
    · rename_i r hr
      rw [hr] at hs
      simp only at hs
      exact ⟨r ++ y, by rw [← List.append_assoc, ← hs], after_sound f hc h⟩
    · rename_i q hq
      rw [hq] at hs
      simp only [List.mem_singleton] at hc
      subst hc
      obtain ⟨z, rfl, hz⟩ := h
      exact ⟨z, by rw [hs.1]; simp, hz⟩
    · simp at hc

theorem contAfter_complete {G : Gram} (hG : G.Closed) {f : Nat} {s y : Str} (hf : s.length ≤ f)
    {a : Config} (h : Cont G a (s ++ y)) : ∃ c ∈ contAfter G f s a, Cont G c y := by
  obtain ⟨z, hz, hacc⟩ := h
  unfold contAfter
  split
  · rename_i ha
    rw [ha, List.nil_append] at hz
    rw [← hz] at hacc
    exact after_complete hG hf hacc
  · rename_i ha
    unfold afterStep
    have hs := strip_spec a.1 s
    split
    · rename_i r hr
      rw [hr] at hs
      simp only at hs
      have e : z = r ++ y := by
        rw [hs, List.append_assoc] at hz
        exact (List.append_cancel_left hz).symm
      rw [e] at hacc
      refine after_complete hG ?_ hacc
      rw [hs, List.length_append] at hf
      omega
    · rename_i q hq
      rw [hq] at hs
      refine ⟨(q, a.2), by simp, z, ?_, hacc⟩
      rw [hs.1, List.append_assoc] at hz
      exact List.append_cancel_left hz
    · rename_i hr
      rw [hr] at hs
      exfalso
      rcases List.append_eq_append_iff.1 hz with ⟨q, h1, _⟩ | ⟨q, h1, _⟩
      · exact hs.2 ⟨q, h1.symm⟩
      · exact hs.1 ⟨q, h1.symm⟩

/-- Everything that is possible after `l` is possible after `r`, in a place with the given
configurations. -/
def placeOk (G : Gram) (f : Nat) (l r : Str) (aw : List Config) : Bool :=
  (aw.flatMap (contAfter G f l)).all fun c =>
    (aw.flatMap (contAfter G f r)).any fun c' => leConfig G c c'

/-- The places of a graph: for every node, beginnings of texts. -/
abbrev Places := List (Nat × List Str)

/-- The places at which a replacement has to be checked; `nodes` lists the nodes. -/
def places (G : Gram) (bad : Nat) (nodes : List Nat) : Places :=
  nodes.map fun n => (n, dedupStr (prefixesFrom G bad n))

/-- The left-hand side of each rule can be replaced by its right-hand side,
except behind the texts in `skip`. -/
def rulesOk (G : Gram) (P : Places) (skip : Str → Bool) (rules : List Rule) : Bool :=
  (rules.all fun p => Nat.ble p.1.length 20) &&
  P.all fun q => q.2.all fun w => skip w || (Nat.ble w.length 20 &&
    rules.all fun p => placeOk G 20 p.1 p.2 (after G 20 q.1 w))

/-- Replacement in a text. -/
theorem rulesOk_keeps {G : Gram} (hG : G.Closed) {bad : Nat} (hB : G.Bad bad) {nodes : List Nat}
    (hnodes : ∀ n, (∃ y, Acc G n y) → n ≠ bad → n ∈ nodes) {rules : List Rule}
    {skip : Str → Bool} (h : rulesOk G (places G bad nodes) skip rules = true) {p : Rule}
    (hp : p ∈ rules) {x y : Str} (hskip : ∀ w, w <:+ x → skip w = false)
    (hxy : Acc G 0 (x ++ (p.1 ++ y))) : Acc G 0 (x ++ (p.2 ++ y)) := by
  obtain ⟨x₁, w, m, e1, e2, e3, e4, e5⟩ := exists_start hG hB x.length (x₀ := []) (Nat.le_refl _)
    hB.zero.symm (fun _ h => h) hxy
  simp only [List.nil_append] at e1
  rw [e1, List.append_assoc]
  apply e4
  simp only [rulesOk, places, Bool.and_eq_true, Bool.or_eq_true, List.all_eq_true,
    List.mem_map] at h
  have hl := Nat.le_of_ble_eq_true (h.1 p hp)
  have hw := h.2 (m, dedupStr (prefixesFrom G bad m)) ⟨m, hnodes m ⟨_, e5⟩ e2, rfl⟩ w
    (mem_dedupStr.2 e3)
  rw [hskip w ⟨x₁, e1.symm⟩] at hw
  obtain ⟨hw, hq⟩ := hw.resolve_left (by simp)
  have hq := hq p hp
  simp only [placeOk, List.all_eq_true, List.any_eq_true, List.mem_flatMap] at hq
  obtain ⟨a, ha, hca⟩ := after_complete hG (Nat.le_of_ble_eq_true hw) e5
  obtain ⟨c, hc, hcont⟩ := contAfter_complete hG hl hca
  obtain ⟨c', ⟨a', ha', hc'⟩, hle⟩ := hq c ⟨a, ha, hc⟩
  exact after_sound _ ha' (contAfter_sound hc' (leConfig_spec hG hle hcont))

/-! ## Passing to a graph with other tokens -/

/-- A text without characters outside `ok` is read with tokens without such characters. -/
theorem Acc.mono {G H : Gram} {ok : Nat → Prop} (heps : ∀ n m, m ∈ G.eps n → m ∈ H.eps n)
    (hout : ∀ n e p, e ∈ G.out n → p ∈ e.1 → (∀ c ∈ p.1, ok c) →
      ∃ e' ∈ H.out n, ∃ p' ∈ e'.1, p'.1 = p.1 ∧ e'.2 = e.2) {n : Nat} {s : Str}
    (h : Acc G n s) (hs : ∀ c ∈ s, ok c) : Acc H n s := by
  induction h with
  | nil h0 => exact Acc.nil (heps _ _ h0)
  | cons h1 h2 h3 _ ih =>
    simp only [List.mem_append] at hs
    obtain ⟨e', he', p', hp', e1, e2⟩ := hout _ _ _ h2 h3 fun c hc => hs c (Or.inl hc)
    rw [← e1]
    refine Acc.cons (heps _ _ h1) he' hp' ?_
    rw [e2]
    exact ih fun c hc => hs c (Or.inr hc)

/-! ## Passes that keep a property of texts -/

/-- One pass of a rule set keeps a property that each of its rules keeps. -/
theorem scan_keeps {W : Str → Prop} {rs : List Rule} (hne : LhsNonempty rs)
    (h : ∀ p ∈ rs, ∀ x y, W (x ++ (p.1 ++ y)) → W (x ++ (p.2 ++ y))) (out : Str) (k : Nat)
    (s : Str) (hs : W (out ++ s.drop k)) : W (out ++ scan rs k s) := by
  induction s generalizing out k with
  | nil => simpa [scan] using hs
  | cons c s ih =>
    cases k with
    | succ k => simp only [scan]; exact ih out k (by simpa using hs)
    | zero =>
      simp only [scan]
      split
      · rename_i p hp
        have hf := findRule_some hp
        obtain ⟨r, hr⟩ := hf.2
        rw [← List.append_assoc]
        apply ih
        rw [List.append_assoc]
        simp only [List.drop_zero] at hs
        have hl := hne p hf.1
        have hd : s.drop (p.1.length - 1) = r := by
          cases hp1 : p.1 with
          | nil => exact absurd hp1 hl
          | cons a t =>
            rw [hp1] at hr
            simp only [List.cons_append, List.cons.injEq] at hr
            rw [← hr.2]
            simp
        rw [hd]
        apply h p hf.1
        rw [hr]; exact hs
      · have : out ++ c :: scan rs 0 s = (out ++ [c]) ++ scan rs 0 s := by simp
        rw [this]
        apply ih
        simpa using hs

/-- The rewriter of a rule file keeps a property that each rule keeps. -/
theorem applyRules_keeps {W : Str → Prop} {rules : List Rule} (hne : LhsNonempty rules)
    (h : ∀ p ∈ rules, ∀ x y, W (x ++ (p.1 ++ y)) → W (x ++ (p.2 ++ y))) {s : Str} (hs : W s) :
    W (applyRules rules s) := by
  unfold applyRules
  have hm : ∀ st ∈ stages rules, ∀ p ∈ st, p ∈ rules := fun st hst p hp => stages_mem hst hp
  generalize stages rules = sts at hm
  induction sts generalizing s with
  | nil => exact hs
  | cons st sts ih =>
    simp only [scanAll]
    refine ih ?_ fun st' h' => hm st' (List.mem_cons_of_mem _ h')
    exact scan_keeps (fun p hp => hne p (hm st (List.mem_cons_self ..) p hp))
      (fun p hp => h p (hm st (List.mem_cons_self ..) p hp)) [] 0 s hs

/-- De-duplication keeps a property that the removal of one repeated character keeps. -/
theorem collapse_keeps {W : Str → Prop} {M : List Nat}
    (h : ∀ c ∈ M, ∀ x y, W (x ++ ([c, c] ++ y)) → W (x ++ ([c] ++ y))) (out s : Str)
    (hs : W (out ++ s)) : W (out ++ collapse M s) := by
  induction s generalizing out with
  | nil => exact hs
  | cons a s ih =>
    cases s with
    | nil => exact hs
    | cons b s =>
      simp only [collapse, Bool.cond_eq_ite]
      split
      · rename_i hab
        simp only [Bool.and_eq_true, List.any_eq_true] at hab
        obtain ⟨h1, c, hc, h2⟩ := hab
        have e1 := Nat.eq_of_beq_eq_true h1
        have e2 := Nat.eq_of_beq_eq_true h2
        subst e1; subst e2
        exact ih out (h a hc out s hs)
      · have : out ++ a :: collapse M (b :: s) = (out ++ [a]) ++ collapse M (b :: s) := by simp
        rw [this]
        apply ih
        simpa using hs

/-- One pass with contexts. -/
theorem scanC_keeps {W : Str → Prop} {C : BCtx} {rs : List Rule} (hne : LhsNonempty rs)
    (h : ∀ p ∈ rs, ∀ x y, C.left x = true → C.right y = true → W (x ++ (p.1 ++ y)) →
      W (x ++ (p.2 ++ y))) (out : Str) (k : Nat) (s : Str) (hs : W (out ++ s.drop k)) :
    W (scanC C rs out k s) := by
  induction s generalizing out k with
  | nil => simpa [scanC] using hs
  | cons c s ih =>
    cases k with
    | succ k => simp only [scanC]; exact ih out k (by simpa using hs)
    | zero =>
      simp only [scanC]
      split
      · rename_i p hp
        obtain ⟨h1, h2, h3, h4⟩ := findRuleC_some hp
        apply ih
        rw [List.append_assoc]
        simp only [List.drop_zero] at hs
        have hl := hne p h1
        have hd : s.drop (p.1.length - 1) = (c :: s).drop p.1.length := by
          cases hp1 : p.1 with
          | nil => exact absurd hp1 hl
          | cons a t => simp
        rw [hd]
        exact h p h1 _ _ h3 h4 (by rw [← h2]; exact hs)
      · apply ih
        simpa using hs

/-- Deletion of characters. -/
theorem filter_keeps {W : Str → Prop} {f : Nat → Bool}
    (h : ∀ c, f c = false → ∀ x y, W (x ++ ([c] ++ y)) → W (x ++ y)) (out s : Str)
    (hs : W (out ++ s)) : W (out ++ s.filter f) := by
  induction s generalizing out with
  | nil => exact hs
  | cons a s ih =>
    simp only [List.filter_cons]
    split
    · have : out ++ a :: s.filter f = (out ++ [a]) ++ s.filter f := by simp
      rw [this]
      apply ih
      simpa using hs
    · rename_i hf
      exact ih out (h a (by simpa using hf) out s hs)

end Nisaba
