import Verif.Lemmas.IsoCert.Beng
import Verif.Lemmas.IsoCert.Deva
import Verif.Lemmas.IsoCert.Gujr
import Verif.Lemmas.IsoCert.Knda
import Verif.Lemmas.IsoCert.Tirh
import Verif.Lemmas.NfcTables
/-!
# ISO conversion of every script
-/
namespace Nisaba
open Seq WRel

/-! ## Rules with one-character left-hand sides -/

theorem findRule_single {rs : List Rule} (h1 : ∀ p ∈ rs, p.1.length = 1) (c : Nat) (s : Str) :
    findRule rs (c :: s) = findRule rs [c] := by
  induction rs with
  | nil => rfl
  | cons p rs ih =>
    have hp := h1 p (List.mem_cons_self ..)
    have e : isPre p.1 (c :: s) = isPre p.1 [c] := by
      match hq : p.1, hp with
      | [a], _ => simp [isPre]
    simp only [findRule, e, ih fun q hq => h1 q (List.mem_cons_of_mem _ hq)]

theorem scan_single {rs : List Rule} (h1 : ∀ p ∈ rs, p.1.length = 1) (a b : Str) :
    scan rs 0 (a ++ b) = scan rs 0 a ++ scan rs 0 b := by
  induction a with
  | nil => rfl
  | cons c a ih =>
    simp only [List.cons_append, scan, findRule_single h1 c (a ++ b), findRule_single h1 c a]
    cases h : findRule rs [c] with
    | none => simp [ih]
    | some p =>
      have := h1 p (findRule_some h).1
      simp [this, ih]

/-- Every left-hand side of every rule set is one character. -/
def singleLhs (sts : List (List Rule)) : Bool :=
  sts.all fun st => st.all fun p => match p.1 with | [_] => true | _ => false

theorem scanAll_single {sts : List (List Rule)} (h : singleLhs sts = true) (a b : Str) :
    scanAll sts (a ++ b) = scanAll sts a ++ scanAll sts b := by
  induction sts generalizing a b with
  | nil => rfl
  | cons st sts ih =>
    simp only [singleLhs, List.all_cons, Bool.and_eq_true] at h
    have h1 : ∀ p ∈ st, p.1.length = 1 := by
      intro p hp
      have := List.all_eq_true.1 h.1 p hp
      match hq : p.1 with
      | [_] => rfl
      | [] => simp [hq] at this
      | _ :: _ :: _ => simp [hq] at this
    simp only [scanAll, scan_single h1]
    exact ih h.2 _ _

theorem scanAll_nil (sts : List (List Rule)) : scanAll sts [] = [] := by
  induction sts with
  | nil => rfl
  | cons st sts ih => simpa [scanAll, scan] using ih

theorem guru_single : singleLhs (stages Data.guru.nfc) = true := by decide +kernel

theorem guru_sha : applyRules Data.guru.nfc [nat_lit 0x0A36] = [nat_lit 0x0A38, nat_lit 0x0A3C] ∧
    applyRules Data.guru.nfc [nat_lit 0x0A38, nat_lit 0x0A3C] = [nat_lit 0x0A38, nat_lit 0x0A3C] := by
  decide +kernel

/-- Spelling SHA with a nukta does not change the NFC form. -/
theorem guru_nfc (m : Str) :
    applyRules Data.guru.nfc (m.flatMap shaToSa) = applyRules Data.guru.nfc m := by
  induction m with
  | nil => rfl
  | cons c m ih =>
    have key : applyRules Data.guru.nfc (shaToSa c) = applyRules Data.guru.nfc [c] := by
      cases h : isSha c with
      | false => simp [shaToSa, h]
      | true =>
        have : c = nat_lit 0x0A36 := Nat.eq_of_beq_eq_true h
        rw [this, guru_sha.1]
        exact guru_sha.2
    rw [List.flatMap_cons, ← List.singleton_append (l := m)]
    simp only [applyRules] at key ih ⊢
    rw [scanAll_single guru_single, scanAll_single guru_single, key, ih]

/-! ## All scripts -/

/-- What the proofs need to know about a script. -/
structure IsoFacts (d : BrahmicData) where
  f : Nat → Str
  ban : Nat → Bool
  ok : IsoOk d f ban
  banned : ∀ c, ban c = true → ∃ p ∈ d.nfc, p.1 = [c]
  same : ∀ m : Str, applyRules d.nfc (m.flatMap f) = applyRules d.nfc m
  keeps : ∀ c a, a ∈ f c → c = a ∨ ∃ p ∈ d.nfc, p.1 = [c]
  writes : ∀ c, f c ≠ []

theorem singleton_flatMap (m : Str) : m.flatMap List.singleton = m := by
  induction m with
  | nil => rfl
  | cons c m ih => rw [List.flatMap_cons, ih]; rfl

theorem IsoFacts.plain {d : BrahmicData} (h : IsoOk d List.singleton noChar) :
    Nonempty (IsoFacts d) :=
  ⟨⟨List.singleton, noChar, h, fun c h => (nomatch h), fun m => by rw [singleton_flatMap],
    fun c a h => Or.inl (List.mem_singleton.1 h).symm,
    fun c h => (nomatch h)⟩⟩

theorem guru_sha_rule : ([nat_lit 0x0A36], [nat_lit 0x0A38, nat_lit 0x0A3C]) ∈ Data.guru.nfc := by
  decide +kernel

theorem IsoFacts.guru : Nonempty (IsoFacts Data.guru) := by
  have key : ∀ c, isSha c = true → ∃ p ∈ Data.guru.nfc, p.1 = [c] := by
    intro c h
    have : c = nat_lit 0x0A36 := Nat.eq_of_beq_eq_true h
    subst this
    exact ⟨_, guru_sha_rule, rfl⟩
  refine ⟨⟨shaToSa, isSha, IsoCert.guru_iso, key, guru_nfc, fun c a h => ?_, fun c h => ?_⟩⟩
  rotate_left
  · cases hs : isSha c <;> simp [shaToSa, hs] at h
  cases hs : isSha c with
  | true => exact Or.inr (key c hs)
  | false => left; simpa [shaToSa, hs, eq_comm] using h

theorem isoFacts {d : BrahmicData} (hd : d ∈ Data.scripts) : Nonempty (IsoFacts d) := by
  simp only [Data.scripts, List.mem_cons, List.not_mem_nil, or_false] at hd
  rcases hd with rfl | rfl | rfl | rfl | rfl | rfl | rfl | rfl | rfl | rfl | rfl | rfl | rfl | rfl |
    rfl | rfl | rfl | rfl | rfl | rfl
  · exact IsoFacts.plain IsoCert.beng_iso
  · exact IsoFacts.plain IsoCert.bugi_iso
  · exact IsoFacts.plain IsoCert.deva_iso
  · exact IsoFacts.plain IsoCert.gujr_iso
  · exact IsoFacts.guru
  · exact IsoFacts.plain IsoCert.knda_iso
  · exact IsoFacts.plain IsoCert.lepc_iso
  · exact IsoFacts.plain IsoCert.limb_iso
  · exact IsoFacts.plain IsoCert.mlym_iso
  · exact IsoFacts.plain IsoCert.mtei_iso
  · exact IsoFacts.plain IsoCert.newa_iso
  · exact IsoFacts.plain IsoCert.orya_iso
  · exact IsoFacts.plain IsoCert.sinh_iso
  · exact IsoFacts.plain IsoCert.sylo_iso
  · exact IsoFacts.plain IsoCert.takr_iso
  · exact IsoFacts.plain IsoCert.taml_iso
  · exact IsoFacts.plain IsoCert.telu_iso
  · exact IsoFacts.plain IsoCert.tglg_iso
  · exact IsoFacts.plain IsoCert.thaa_iso
  · exact IsoFacts.plain IsoCert.tirh_iso

end Nisaba
