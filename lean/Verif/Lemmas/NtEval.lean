import Verif.Lemmas.NtGu
/-!
# Outputs of the grammars for given texts
-/
namespace Nisaba.NT
open G2p Rom

/-- The longest left side at the start of a string. -/
def best (x : Str) : List (Str × Str) → Option (Str × Str)
  | [] => none
  | r :: rs => match best x rs with
    | some s => bif pre r.1 x && Nat.blt s.1.length r.1.length then some r else some s
    | none => bif pre r.1 x then some r else none

theorem best_some {x : Str} {rs : List (Str × Str)} {r : Str × Str} (h : best x rs = some r) :
    r ∈ rs ∧ r.1 <+: x := by
  induction rs with
  | nil => cases h
  | cons s rs ih =>
    rw [best] at h
    cases hb : best x rs with
    | none =>
      rw [hb] at h
      simp only [cond_eq_ite] at h
      split at h
      · next hp => injection h with h; subst h; exact ⟨by simp, pre_iff.1 hp⟩
      · cases h
    | some t =>
      rw [hb] at h
      simp only [cond_eq_ite] at h
      split at h
      · next hp =>
        injection h with h; subst h
        rw [Bool.and_eq_true] at hp
        exact ⟨by simp, pre_iff.1 hp.1⟩
      · injection h with h; subst h
        obtain ⟨h1, h2⟩ := ih hb
        exact ⟨by simp [h1], h2⟩

theorem best_none {x : Str} {rs : List (Str × Str)} (h : best x rs = none) :
    ∀ r ∈ rs, ¬ r.1 <+: x := by
  induction rs with
  | nil => intro r hr; cases hr
  | cons s rs ih =>
    rw [best] at h
    cases hb : best x rs with
    | some t =>
      rw [hb] at h
      simp only [cond_eq_ite] at h
      split at h <;> cases h
    | none =>
      rw [hb] at h
      simp only [cond_eq_ite] at h
      split at h
      · cases h
      · next hp =>
        intro r hr
        rw [List.mem_cons] at hr
        rcases hr with rfl | hr
        · exact fun hc => hp (pre_iff.2 hc)
        · exact ih hb r hr

/-- Rewriting without contexts, longest match first. -/
def ev (rs : List (Str × Str)) : Nat → Str → Str
  | _, [] => []
  | 0, s => s
  | n + 1, c :: s => match best (c :: s) rs with
    | some r => r.2 ++ ev rs n ((c :: s).drop r.1.length)
    | none => c :: ev rs n s

theorem ev_cdr {rs : List (Str × Str)} (hne : ∀ r ∈ rs, r.1 ≠ []) {C : Cx Nat} (hL : ∀ x, C.left x)
    (hR : ∀ x, C.right x) (n : Nat) (s out : Str) (hn : s.length ≤ n) :
    Cdr (rules rs) C out s (out ++ ev rs n s) := by
  induction n generalizing s out with
  | zero =>
    have : s = [] := List.length_eq_zero_iff.1 (by omega)
    subst this
    rw [ev, List.append_nil]
    exact .done fun r h _ _ => hne _ h rfl
  | succ n ih =>
    cases s with
    | nil =>
      rw [ev, List.append_nil]
      exact .done fun r h _ _ => hne _ h rfl
    | cons c s =>
      rw [ev]
      cases hb : best (c :: s) rs with
      | none =>
        have := ih s (out ++ [c]) (by simp at hn; omega)
        simp only
        rw [show out ++ c :: ev rs n s = out ++ [c] ++ ev rs n s by simp]
        refine .copy ?_ this
        intro l r rest' hm he _ _
        exact best_none hb _ hm ⟨rest', he.symm⟩
      | some r =>
        obtain ⟨hm, rest, he⟩ := best_some hb
        have hl := List.length_pos_iff.2 (hne r hm)
        have hlen := congrArg List.length he
        simp only [List.length_append, List.length_cons] at hlen hn
        simp only
        rw [← he, List.drop_left, ← List.append_assoc]
        exact .apply (l := r.1) hm (hne r hm) (hL _) (hR _) (ih rest (out ++ r.2) (by omega))

/-- Labels of bytes. -/
def overB (x : Str) : Bool := x.all fun c => Nat.blt 0 c && Nat.blt c 256

theorem overB_iff {x : Str} (h : overB x = true) : Over byteLabel x := by
  intro c hc
  have := List.all_eq_true.1 h c hc
  simp only [Bool.and_eq_true, Nat.blt_eq] at this
  exact this

/-- Check of an output of a stage without contexts. -/
def evB (rs : List (Str × Str)) (x y : Str) : Bool :=
  (rs.all fun r => !r.1.isEmpty) && (overB x && (overB y && seq (ev rs x.length x) y))

theorem evB_iff {rs : List (Str × Str)} {x y : Str} (h : evB rs x y = true) :
    cdrewrite (rules rs) (str []) (str []) x y := by
  simp only [evB, Bool.and_eq_true] at h
  obtain ⟨h1, h2, h3, h4⟩ := h
  refine ⟨overB_iff h2, overB_iff h3, ?_⟩
  have := ev_cdr (rs := rs) (C := ctxOf (str []) (str [])) (fun r hr he => by
    have := List.all_eq_true.1 h1 r hr
    rw [he] at this
    cases this) (fun x => ctx_nil_left x _) (fun x => ctx_nil_right x _) x.length x [] (Nat.le_refl _)
  rwa [List.nil_append, seq_eq.1 h4] at this

/-- No left side of a rule in a string. -/
def idB (rs : List (Str × Str)) (x : Str) : Bool :=
  overB x && rs.all fun r => !r.1.isEmpty && (sufs x).all fun s => !pre r.1 s

theorem idB_iff {rs : List (Str × Str)} {x : Str} (h : idB rs x = true) (L R : Lang) :
    cdrewrite (rules rs) L R x x := by
  simp only [idB, Bool.and_eq_true] at h
  refine ⟨overB_iff h.1, overB_iff h.1, ?_⟩
  have hr : ∀ l r, (l, r) ∈ rs → l ≠ [] ∧ ∀ s, s ≠ [] → s <:+ x → ¬ l <+: s := by
    intro l r hm
    have h1 := List.all_eq_true.1 h.2 _ hm
    rw [Bool.and_eq_true] at h1
    refine ⟨by rintro rfl; simp at h1, fun s hs hx hp => ?_⟩
    have := List.all_eq_true.1 h1.2 s (mem_sufs hs hx)
    simp only [pre_iff.2 hp, Bool.not_true] at this
    cases this
  have key : ∀ rest out, rest <:+ x → Cdr (rules rs) (ctxOf L R) out rest (out ++ rest) := by
    intro rest
    induction rest with
    | nil =>
      intro out _
      rw [List.append_nil]
      exact .done fun r hm _ _ => (hr _ _ hm).1 rfl
    | cons c rest ih =>
      intro out hx
      refine .copy ?_ ?_
      · intro l r rest' hm he _ _
        exact (hr l r hm).2 (c :: rest) (by simp) hx ⟨rest', he.symm⟩
      · have := ih (out ++ [c]) ((List.suffix_cons c rest).trans hx)
        simpa using this
  exact key x [] (List.suffix_refl x)

/-- A list of relations that have a string as an output for itself. -/
def IdL (x : Str) (rs : List Rel) : Prop := ∀ R ∈ rs, R x x

theorem idL_nil {x : Str} : IdL x [] := by intro R hR; cases hR
theorem idL_cons {x : Str} {R : Rel} {rs : List Rel} (h : R x x) (k : IdL x rs) : IdL x (R :: rs) := by
  intro S hS
  rw [List.mem_cons] at hS
  rcases hS with rfl | hS
  exacts [h, k S hS]
theorem idL_append {x : Str} {rs ss : List Rel} (h : IdL x rs) (k : IdL x ss) : IdL x (rs ++ ss) := by
  intro R hR
  rw [List.mem_append] at hR
  rcases hR with hR | hR
  exacts [h R hR, k R hR]

theorem IdL.compose {x : Str} {rs : List Rel} (h : IdL x rs) : compose rs x x := by
  induction rs with
  | nil => rfl
  | cons R rs ih =>
    rw [compose_cons]
    exact ⟨x, h R (by simp), ih fun S hS => h S (by simp [hS])⟩

/-! ## Reading of a text -/

theorem sp_mem {a : Str} (h : (Brh.SINGLE_POINT.find? fun c => seq c.alias a).isSome = true) :
    Brh.sp a ∈ Brh.SINGLE_POINT := by
  obtain ⟨q, hq⟩ := Option.isSome_iff_exists.1 h
  rw [Brh.sp, byAlias, hq]
  exact List.mem_of_find?_eq_some hq

/-- The characters of a list of aliases. -/
def spB (as : List Str) : Bool := as.all fun a => (Brh.SINGLE_POINT.find? fun c => seq c.alias a).isSome

theorem spB_iff {as : List Str} (h : spB as = true) : ∀ c ∈ as.map Brh.sp, c ∈ Brh.SINGLE_POINT := by
  intro c hc
  obtain ⟨a, ha, rfl⟩ := List.mem_map.1 hc
  exact sp_mem (List.all_eq_true.1 h a ha)

/-- Check of the graphemes of a text. -/
def typB (as : List Str) (s1 : Str) (ts2 : List Tok) (s4 s5 s6 : Str) : Bool :=
  (spB as && evB (cmpRules Brh.LONG_VOCALIC) ((as.map Brh.sp).flatMap Chr.gr) s1) &&
  (evB (cmpRules Brh.TWO_POINT_SIGN) s1 (enc ts2) && ts2.all (fun t => match t with
    | .g s => Brh.CHAR.any fun c => seq c.typ s
    | _ => false)) &&
  (evB (cmpRules Brh.INDEPENDENT_VOWEL) (enc (addInd ts2)) s4 &&
    (evB (cmpRules Brh.COMPOSITE_CONSONANT) s4 s5 && evB (cmpRules (Brh.OM ++ Brh.CND)) s5 s6))

theorem typB_iff {as : List Str} {s1 s4 s5 s6 : Str} {ts2 : List Tok} (h : typB as s1 ts2 s4 s5 s6 = true)
    (m : Mode) : compose (isoToTypRules m) (m.labels ((as.map Brh.sp).flatMap Chr.glyph)) s6 := by
  simp only [typB, Bool.and_eq_true] at h
  obtain ⟨⟨⟨h0, h1⟩, h2, ht⟩, h4, h5, h6⟩ := h
  have r0 := (readGlyph_iff m Brh.SINGLE_POINT _ _).2 ⟨as.map Brh.sp, spB_iff h0, rfl, rfl⟩
  have htyp : Typ ts2 := by
    intro a ha
    have := List.all_eq_true.1 ht a ha
    cases a with
    | g s =>
      obtain ⟨c, hc, he⟩ := List.any_eq_true.1 this
      exact ⟨c, hc, by rw [seq_eq.1 he]⟩
    | eq => cases this
    | p s => cases this
    | t s => cases this
  have r3 := (ind_stage htyp).1
  rw [isoToTypRules, ind_eq]
  simp only [compose_cons, composeFromGr_eq]
  exact ⟨_, r0, _, evB_iff h1, _, evB_iff h2, _, r3, _, evB_iff h4, _, evB_iff h5, _, evB_iff h6, rfl⟩

/-- The default pronunciation of a text. -/
theorem txn_of_typ {ts : List Tok} (h : Typ ts) {m : Mode} {x : Str}
    (hx : compose (isoToTypRules m) x (enc ts)) : compose (isoToTxn m) x (enc (ts.flatMap alTok)) :=
  (compose_append ..).2 ⟨_, hx, (txn_stage h).1⟩

end Nisaba.NT
