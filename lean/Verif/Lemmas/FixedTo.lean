import Verif.Lemmas.FixedMlym
import Verif.Props.Iso
/-!
# From keys to Malayalam letters
-/
namespace Nisaba.Fixed
open WRel Props Props.Iso Nisaba.Seq Pieces

theorem mlym_mem : Data.mlym ∈ Data.scripts := by simp [Data.scripts]

/-- A best output of the certificate is the best conversion, if it is in NFC. -/
theorem to_best {σ : Nat → Prop} (hσ : Contains σ Data.mlym) {R : Rel}
    (hR : nfcFst Data.mlym σ = some R) {y z : Str} {w : Nat}
    (hb : IsoCert.Mlym.T.best y = some (w, z)) (hn : applyRules Data.mlym.nfc z = z) (z' : Str) :
    Best (toScript Data.mlym R) y z' ↔ z' = z := by
  obtain ⟨h5, h6⟩ := best_exact IsoCert.mlym_T hb
  obtain ⟨x, hx, hrun⟩ := swap_run ((run_iff_reach (inp_ne IsoCert.mlym_T)).2 h5)
  have single : ∀ l : Str, l.flatMap List.singleton = l := fun l => by
    induction l with
    | nil => rfl
    | cons a l ih => simp only [List.flatMap_cons, ih]; rfl
  rw [single] at hx
  subst hx
  have hz := brahmicToIso_iff_run.2 hrun
  have hto : toScript Data.mlym R y x w :=
    to_iff.2 ⟨x, hz, (nfc_iff mlym_mem hσ hR).2 ⟨fun c hc => hσ c (iso_over hz c hc), hn.symm⟩⟩
  have key : ∀ z' w', toScript Data.mlym R y z' w' → w < w' ∨ (w = w' ∧ z' = x) := by
    intro z' w' h
    obtain ⟨m, hm, hmz⟩ := to_iff.1 h
    have := h6 ((run_iff_reach (inp_ne IsoCert.mlym_T)).1
      (run_swap List.singleton (brahmicToIso_iff_run.1 hm)))
    rw [single] at this
    rcases this with h | ⟨h, rfl⟩
    · exact Or.inl h
    · exact Or.inr ⟨h, by rw [((nfc_iff mlym_mem hσ hR).1 hmz).2, hn]⟩
  constructor
  · rintro ⟨w', h, hle⟩
    have := hle x w hto
    rcases key z' w' h with h | ⟨_, h⟩
    · omega
    · exact h
  · rintro rfl
    refine ⟨w, hto, fun z' w' h => ?_⟩
    rcases key z' w' h with h | ⟨h, _⟩ <;> omega

theorem over_keys {l : List (Nat × Str × Str)} (h : Good l) : Over asciiInput (Keys.keys l) := by
  intro c hc
  obtain ⟨_, hs, hc⟩ := List.mem_flatten.1 hc
  obtain ⟨p, hp, rfl⟩ := List.mem_map.1 hs
  have hg := good_mem h hp
  have hlt : p.1 < groups.length := by
    rcases Nat.lt_or_ge p.1 groups.length with h | h
    · exact h
    · rw [List.getD_eq_getElem?_getD, List.getElem?_eq_none h] at hg
      cases hg
  rw [List.getD_eq_getElem?_getD, List.getElem?_eq_getElem hlt] at hg
  have h1 : groups[p.1].map Prod.fst ∈ keyGroups :=
    List.mem_map.2 ⟨_, List.getElem_mem hlt, rfl⟩
  have := List.all_eq_true.1 (List.all_eq_true.1 (List.all_eq_true.1 keys_ascii _ h1) _
    (List.mem_map.2 ⟨_, hg, rfl⟩)) c hc
  simp only [Bool.and_eq_true, Nat.ble_eq, Bool.not_eq_true'] at this
  obtain ⟨⟨⟨h1, h2⟩, h3⟩, h4⟩ := this
  exact ⟨Or.inr ⟨h1, h2⟩, Nat.ne_of_beq_eq_false h3, Nat.ne_of_beq_eq_false h4⟩

/-- The certificate reads the ISO text of `mO` as ം and ഓ. -/
theorem best_mO : ∃ w, IsoCert.Mlym.T.best (scanAll (sts Data.mlymFixed) Keys.mO) =
    some (w, [nat_lit 0xD02, nat_lit 0xD13]) := by
  have h : (IsoCert.Mlym.T.best (scanAll (sts Data.mlymFixed) Keys.mO)).map Prod.snd =
      some [nat_lit 0xD02, nat_lit 0xD13] := by decide +kernel
  cases hb : IsoCert.Mlym.T.best (scanAll (sts Data.mlymFixed) Keys.mO) with
  | none => rw [hb] at h; cases h
  | some r =>
    rw [hb] at h
    simp only [Option.map_some, Option.some.injEq] at h
    exact ⟨r.1, by rw [← h]⟩

/-! ## The separator -/

/-- `'~'`. -/
def tilde : Nat := nat_lit 126
/-- U+2E2F before `~` is deleted with it. -/
def ruleA : Rule := ([nat_lit 0x2E2F, tilde], [])
/-- `~` is deleted. -/
def ruleB : Rule := ([tilde], [])

theorem rules_last : Data.mlymFixed.drop 79 = [ruleA, ruleB] := by decide +kernel

theorem tilde_before : memNat (lhsChars (sts (Data.mlymFixed.take 79))) tilde = false := by
  decide +kernel

theorem scanAll_append (S T : List (List Rule)) (s : Str) :
    scanAll (S ++ T) s = scanAll T (scanAll S s) := by
  induction S generalizing s with
  | nil => rfl
  | cons st S ih => exact ih _

theorem sep_rules {S : List (List Rule)} (hS : ∀ st ∈ S, LhsNonempty st) {c : Nat}
    (hc : c ∉ lhsChars S) {st st' : List Rule} (h1 : LhsNonempty st) (h2 : EndsAt c st)
    (h3 : LhsNonempty st') (h4 : ∀ p ∈ st', p.1.length = 1) (u v : Str) :
    scanAll (S ++ [st, st']) (u ++ c :: v) =
      scanAll (S ++ [st, st']) (u ++ [c]) ++ scanAll (S ++ [st, st']) v := by
  have e : ∀ s, scanAll (S ++ [st, st']) s = scan st' 0 (scan st 0 (scanAll S s)) := fun s => by
    rw [scanAll_append]; rfl
  simp only [e]
  have a1 : scanAll S (u ++ c :: v) = scanAll S (u ++ [c]) ++ scanAll S v := by
    rw [scanAll_sep hS hc, scanAll_sep hS hc u []]
    have : scanAll S [] = [] := by
      clear hS hc e
      induction S with
      | nil => rfl
      | cons st S ih => exact ih
    simp [this]
  have a2 : scanAll S (u ++ [c]) = scanAll S u ++ c :: scanAll S [] := scanAll_sep hS hc u []
  have a3 : scanAll S ([] : Str) = [] := by
    clear hS hc e a1 a2
    induction S with
    | nil => rfl
    | cons st S ih => exact ih
  rw [a1, a2, a3, scan_split h1 (noCross_end h2 _ _), scan_split h3]
  intro p hp l₁ l₂ e' h5 h6 _ _
  have := h4 p hp
  rw [e', List.length_append] at this
  have := List.length_pos_iff.2 h5
  have := List.length_pos_iff.2 h6
  omega

theorem fixed_sep (u v : Str) :
    scanAll (sts Data.mlymFixed) (u ++ tilde :: v) =
      scanAll (sts Data.mlymFixed) (u ++ [tilde]) ++ scanAll (sts Data.mlymFixed) v := by
  have hsplit : sts Data.mlymFixed = sts (Data.mlymFixed.take 79) ++ [[ruleA], [ruleB]] := by
    conv => lhs; rw [← List.take_append_drop 79 Data.mlymFixed, rules_last]
    simp only [sts, List.map_append]
    rfl
  have hne := sts_nonempty fixed_nonempty
  rw [hsplit] at hne ⊢
  refine sep_rules (fun st hst => hne st (List.mem_append_left _ hst)) ?_
    (hne _ (by simp)) ?_ (hne _ (by simp)) ?_ u v
  · intro h
    have := memNat_iff.2 h
    rw [tilde_before] at this
    cases this
  · intro p hp
    rw [List.mem_singleton.1 hp]
    decide
  · intro p hp
    rw [List.mem_singleton.1 hp]
    rfl

theorem scan_delete (c : Nat) (s : Str) : c ∉ scan [([c], [])] 0 s := by
  have hne : LhsNonempty [([c], [])] := fun p hp => by rw [List.mem_singleton.1 hp]; simp
  induction s with
  | nil => simp [scan]
  | cons a s ih =>
    cases hf : findRule [([c], [])] (a :: s) with
    | none =>
      rw [scan_none hf]
      simp only [List.mem_cons, not_or]
      refine ⟨?_, ih⟩
      rintro rfl
      simp [findRule, isPre] at hf
    | some p =>
      rw [scan_some hne hf]
      obtain ⟨hp, -⟩ := findRule_some hf
      rw [List.mem_singleton.1 hp]
      simpa using ih

theorem fixed_no_sep (s : Str) : tilde ∉ scanAll (sts Data.mlymFixed) s := by
  have hsplit : sts Data.mlymFixed =
      (sts (Data.mlymFixed.take 79) ++ [[ruleA]]) ++ [[ruleB]] := by
    conv => lhs; rw [← List.take_append_drop 79 Data.mlymFixed, rules_last]
    simp only [sts, List.map_append, List.append_assoc]
    rfl
  rw [hsplit, scanAll_append]
  exact scan_delete tilde _

/-! ## Letters that keys cannot write -/

/-- Letters and what each of them needs in the ISO text. -/
def needs : List (Nat × Str) := [
  /- ർ ṟⸯ -/ (nat_lit 0xD7C, [nat_lit 0x1E5F, nat_lit 0x2E2F]),
  /- ൿ kⸯ -/ (nat_lit 0xD7F, [nat_lit 0x6B, nat_lit 0x2E2F]),
  /- ഌ l̥ -/ (nat_lit 0xD0C, [nat_lit 0x6C, nat_lit 0x325]),
  /- ൢ l̥ -/ (nat_lit 0xD62, [nat_lit 0x6C, nat_lit 0x325]),
  /- ൡ l̥̄ -/ (nat_lit 0xD61, [nat_lit 0x6C, nat_lit 0x325]),
  /- ൣ l̥̄ -/ (nat_lit 0xD63, [nat_lit 0x6C, nat_lit 0x325]),
  /- ഁ m̐ -/ (nat_lit 0xD01, [nat_lit 0x310]),
  /- ഽ ’ -/ (nat_lit 0xD3D, [nat_lit 0x2019]),
  /- ഺ ṯ -/ (nat_lit 0xD3A, [nat_lit 0x1E6F]),
  /- ഩ ṉ -/ (nat_lit 0xD29, [nat_lit 0x1E49])]

theorem needs_arcs : needs.all (fun n => (isoArcs Data.mlym).all
    (fun a => bif memNat a.inp n.1 then isFactor n.2 a.out else true)) = true := by decide +kernel

/-- The characters that the rules write. -/
def written : List Nat := Data.mlymFixed.flatMap Prod.snd

/-- A need that the rules cannot meet: a character that is not ASCII and that they do not write, or
a pair whose first character is never before the second one. -/
def unmet (l : Str) : Bool :=
  match l with
  | [c] => Nat.ble (nat_lit 128) c && !memNat written c
  | [c, m] => Nat.ble (nat_lit 128) m && predsOk m (fun P => !memNat P c) [] Data.mlymFixed
  | _ => false

theorem needs_unmet : needs.all (fun n => unmet n.2) = true := by decide +kernel

theorem unmet_iso {l s : Str} (h : unmet l = true) (ho : Over asciiInput s) :
    ¬ l <:+: scanAll (sts Data.mlymFixed) s := by
  have hasc : ∀ m, 128 ≤ m → m ∉ s := by
    intro m hm hms
    obtain ⟨h, _, _⟩ := ho m hms
    omega
  unfold unmet at h
  split at h
  · rename_i c
    rw [Bool.and_eq_true, Nat.ble_eq] at h
    intro hin
    rcases mem_scanAll (hin.mem List.mem_cons_self) with h1 | ⟨r, hr, h1⟩
    · exact hasc c h.1 h1
    · have : memNat written c = true := memNat_iff.2 (List.mem_flatMap.2 ⟨r, hr, h1⟩)
      rw [this] at h
      simp at h
  · rename_i c m
    rw [Bool.and_eq_true, Nat.ble_eq] at h
    obtain ⟨P, hP, hp⟩ := predsOk_scanAll h.2 (preceded_of_not_mem (hasc m h.1) false)
    exact preceded_not_infix hp (by simpa using hP)
  · cases h

theorem nfc_writes : needs.all (fun n => !memNat (Data.mlym.nfc.flatMap Prod.snd) n.1) = true := by
  decide +kernel

theorem mem_applyRules {rules : List Rule} {s : Str} {c : Nat} (h : c ∈ applyRules rules s) :
    c ∈ s ∨ c ∈ rules.flatMap Prod.snd := by
  unfold applyRules stages at h
  have key : ∀ S : List (List Rule), (∀ st ∈ S, ∀ p ∈ st, p ∈ rules) → ∀ s, c ∈ scanAll S s →
      c ∈ s ∨ c ∈ rules.flatMap Prod.snd := by
    intro S
    induction S with
    | nil => exact fun _ s h => Or.inl h
    | cons st S ih =>
      intro hS s h
      rcases ih (fun st' h' => hS st' (List.mem_cons_of_mem _ h')) _ h with h | h
      · refine over_scan (σ := fun c => c ∈ s ∨ c ∈ rules.flatMap Prod.snd) ?_ 0 s
          (fun c hc => Or.inl hc) c h
        intro p hp c hc
        exact Or.inr (List.mem_flatMap.2 ⟨p, hS st (by simp) p hp, hc⟩)
      · exact Or.inr h
  cases hp : partitionUnordered rules with
  | ok sets => rw [hp] at h; exact key _ (fun st hst p hp' => mem_sets_rules hp hst hp') s h
  | valueError => rw [hp] at h; exact Or.inl h
  | fuel => rw [hp] at h; exact Or.inl h

theorem untypable {σ : Nat → Prop} (hσ : Contains σ Data.mlym) {R : Rel}
    (hR : nfcFst Data.mlym σ = some R) {s z : Str} {w : Nat}
    (h : fixedFst Data.mlymFixed Data.mlym R s z w) {n : Nat × Str} (hn : n ∈ needs) : n.1 ∉ z := by
  intro hz
  obtain ⟨ho, hto⟩ := (fixed_iff fixed_nonempty).1 h
  obtain ⟨m, hm, hmz⟩ := to_iff.1 hto
  rw [((nfc_iff mlym_mem hσ hR).1 hmz).2] at hz
  rcases mem_applyRules hz with h1 | h1
  · exact unmet_iso (List.all_eq_true.1 needs_unmet n hn) ho
      (iso_needs (List.all_eq_true.1 needs_arcs n hn) hm h1)
  · have := List.all_eq_true.1 nfc_writes n hn
    rw [memNat_iff.2 h1] at this
    simp at this

end Nisaba.Fixed
