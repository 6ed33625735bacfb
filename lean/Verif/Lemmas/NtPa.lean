import Verif.Lemmas.NtEval
/-!
# Punjabi: texts without silent characters
-/
namespace Nisaba.NT
open G2p Rom

set_option maxRecDepth 100000

/-- Without a left context nothing is rewritten. -/
theorem cdr_noctx {τ : Rel} {C : Cx Nat} (hne : ∀ l r, τ l r → l ≠ []) {out rest fin : Str}
    (h : Cdr τ C out rest fin) (hL : ∀ u, u <+: out ++ rest → ¬ C.left u) : fin = out ++ rest := by
  induction h with
  | done => simp
  | insEnd h => exact absurd rfl (hne _ _ h)
  | @apply out l r rest fin h _ hl => exact absurd hl (hL out (List.prefix_append _ _))
  | ins h => exact absurd rfl (hne _ _ h)
  | copy _ _ ih =>
    rw [ih (by simpa using hL)]
    simp

/-- Names of the characters without a sound. -/
def silNames : List Str := [a!"avg", a!"nkt", a!"cnd_dia", a!"add", a!"long", a!"chl", a!"eye", a!"ind",
  a!"sgn", a!"zwj", a!"zwn", a!"vir"]

theorem sil_ph : (Brh.CHAR.all fun c => silNames.any (seq c.typ) ||
    !((toks c.ph).getD []).any (fun t => match t with | .p s => seq s a!"sil" | _ => false)) = true := by
  decide +kernel

/-- Sequences without the silent phoneme. -/
def NoSilT (ts : List Tok) : Prop := .p a!"sil" ∉ ts

theorem al_noSil {ts : List Tok} (h : Typ ts) (hs : ∀ s ∈ silNames, .g s ∉ ts) : NoSilT (ts.flatMap alTok) := by
  intro hm
  obtain ⟨a, ha, hm⟩ := List.mem_flatMap.1 hm
  obtain ⟨c, hc, rfl⟩ := h a ha
  have h1 := List.all_eq_true.1 sil_ph c hc
  rw [Bool.or_eq_true] at h1
  rcases h1 with h1 | h1
  · exact hs _ (any_seq h1) ha
  · rw [alTok, (char_ok hc).2.1, List.mem_cons, List.mem_cons] at hm
    rcases hm with hm | hm | hm
    · cases hm
    · cases hm
    · have : ((toks c.ph).getD []).any (fun t => match t with | .p s => seq s a!"sil" | _ => false) = true :=
        List.any_eq_true.2 ⟨_, hm, by decide⟩
      rw [this] at h1
      cases h1

def addakRules : List (Str × Str) := Brh.ONSET_CONSONANT.map (fun c => (c.ph, c.ph ++ c.ph))

theorem addak_eq : ADDAK = [cdrewrite (rules addakRules) (cat (ph a!"SIL") SKIP) (str [])] := by
  rw [ADDAK, rewriteLs, List.map_map, addakRules, ← unionR_map]
  rfl

theorem addak_ne : (addakRules.all fun r => !r.1.isEmpty) = true := by decide +kernel
theorem sil_eq : Psa.ph a!"SIL" = enc [.p a!"sil"] := by decide +kernel

theorem addak_left {ts : List Tok} (hts : Plain ts) (h : NoSilT ts) {u : Str} (hu : u <+: enc ts) :
    ¬ (ctxOf (cat (ph a!"SIL") SKIP) (str [])).left u := by
  rintro ⟨a, b, he, x, y, rfl, hx, hy⟩
  rw [ph, sil_eq] at hx
  rw [show x = enc [.p a!"sil"] from hx] at he
  obtain ⟨w, hw⟩ := hu
  cases a with
  | nil =>
    injection he with h1 _
    cases h1
  | cons c a =>
    injection he with _ h2
    subst h2
    obtain ⟨ut, vt, h3, _⟩ := enc_factor (a := .p a!"sil") (lt := []) (u := a) (v := y ++ w) hts
      (by intro t ht; rw [List.mem_singleton] at ht; subst ht; decide) (by simp)
      (by rw [← hw]; simp)
    exact h (by rw [h3]; simp)

theorem addak_id {ts : List Tok} (h : OK M1 ts) (hs : NoSilT ts) :
    compose ADDAK (enc ts) (enc ts) ∧ ∀ z, compose ADDAK (enc ts) z → z = enc ts := by
  have hne : ∀ l r, rules addakRules l r → l ≠ [] := by
    intro l r hm he
    have := List.all_eq_true.1 addak_ne _ hm
    rw [he] at this
    cases this
  have hu : ∀ z, compose ADDAK (enc ts) z → z = enc ts := by
    intro z hz
    rw [addak_eq] at hz
    have := cdr_noctx hne (hz : cdrewrite _ _ _ _ _).2.2 (fun u hu => addak_left h.plain hs (by simpa using hu))
    simpa using this
  obtain ⟨z, hz⟩ := (st_compose st_ADDAK).2 ts h
  have e := hu z hz
  subst e
  exact ⟨hz, hu⟩

/-- The pronunciation of texts without silent characters. -/
theorem pa_blk {rs : List Rel} {good : Str → Prop} (h : Blk (OK M1) (paRest ++ rs) good) :
    Blk (fun ts => OK M1 ts ∧ NoSilT ts) (Pa.txn ++ rs) good := by
  intro ts hts
  obtain ⟨h1, h2⟩ := addak_id hts.1 hts.2
  obtain ⟨y, h3, h4, h5⟩ := h ts hts.1
  rw [pa_eq, List.append_assoc]
  refine ⟨y, h3, (compose_append ..).2 ⟨_, h1, h4⟩, ?_⟩
  intro z hz
  obtain ⟨u, hu, hz⟩ := (compose_append ..).1 hz
  rw [h2 u hu] at hz
  exact h5 z hz

end Nisaba.NT
