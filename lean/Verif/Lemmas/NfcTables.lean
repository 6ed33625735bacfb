import Verif.Lemmas.Runs
/-!
# The NFC tables of the 20 scripts and the pan-Brahmic table
-/
namespace Nisaba

set_option maxRecDepth 100000

/-- Every NFC table compiles and leaves none of its left-hand sides behind. -/
theorem nfc_clean_all : (Data.scripts.all fun d => cleanRules d.nfc) = true := by decide +kernel

theorem nfc_clean {d : BrahmicData} (h : d ∈ Data.scripts) : cleanRules d.nfc = true :=
  List.all_eq_true.1 nfc_clean_all d h

/-! ## Pan-Brahmic -/

/-- Character classes: position of the first list containing the character, counted from the end. -/
def clsOf : List (List Nat) → Nat → Nat
  | [], _ => 0
  | cs :: rest, c => bif memNat cs c then rest.length + 1 else clsOf rest c

def classAt : List (List Nat) → Nat → Option (List Nat)
  | [], _ => none
  | cs :: rest, k => if k = rest.length + 1 then some cs else classAt rest k

theorem classAt_mem {l : List (List Nat)} {k : Nat} {cs : List Nat} (h : classAt l k = some cs) :
    cs ∈ l := by
  induction l with
  | nil => simp [classAt] at h
  | cons x l ih =>
    simp only [classAt] at h
    split at h
    · simp at h; simp [h]
    · exact List.mem_cons_of_mem _ (ih h)

theorem clsOf_le (l : List (List Nat)) (c : Nat) : clsOf l c ≤ l.length := by
  induction l with
  | nil => simp [clsOf]
  | cons x l ih =>
    simp only [clsOf, Bool.cond_eq_ite]
    split <;> simp; omega

theorem clsOf_zero {l : List (List Nat)} {c : Nat} (h : clsOf l c = 0) : ∀ cs ∈ l, c ∉ cs := by
  induction l with
  | nil => simp
  | cons x l ih =>
    simp only [clsOf, Bool.cond_eq_ite] at h
    split at h
    · simp at h
    · rename_i hx
      intro cs hcs
      rcases List.mem_cons.1 hcs with rfl | hcs
      · exact fun hc => hx (memNat_iff.2 hc)
      · exact ih h cs hcs

theorem clsOf_pos {l : List (List Nat)} {c : Nat} (h : clsOf l c ≠ 0) :
    ∃ cs, classAt l (clsOf l c) = some cs ∧ c ∈ cs := by
  induction l with
  | nil => simp [clsOf] at h
  | cons x l ih =>
    simp only [clsOf, Bool.cond_eq_ite] at h ⊢
    split
    · rename_i hx
      exact ⟨x, by simp [classAt], memNat_iff.1 hx⟩
    · rename_i hx
      rw [if_neg hx] at h
      obtain ⟨cs, h1, h2⟩ := ih h
      refine ⟨cs, ?_, h2⟩
      have := clsOf_le l c
      simp only [classAt]
      rw [if_neg (by omega)]
      exact h1

/-- Characters used by a script's NFC table. -/
def nfcClasses : List (List Nat) := Data.scripts.map fun d => bothChars d.nfc

def nfcCls : Nat → Nat := clsOf nfcClasses

def monoB (p : Rule) : Bool :=
  match p.2 with
  | [] => false
  | r :: rs =>
    let k := nfcCls r
    p.1.all (fun c => Nat.beq (nfcCls c) k) && rs.all (fun c => Nat.beq (nfcCls c) k)

theorem brahmic_ok : isOk (partitionUnordered brahmicNfcRules) = true := by decide +kernel

theorem brahmic_monoB : (brahmicNfcRules.all fun p => monoB p && !p.1.isEmpty) = true := by
  decide +kernel

/-- Equality of cascades up to empty rule sets at the end. -/
def stagesEq : List (List Rule) → List (List Rule) → Bool
  | [], b => b.all (·.isEmpty)
  | x :: a, y :: b => (let rec go : List Rule → List Rule → Bool
      | [], [] => true
      | p :: ps, q :: qs => ruleEq p q && go ps qs
      | _, _ => false
    go x y) && stagesEq a b
  | _ :: _, [] => false

theorem stagesEq_go {x y : List Rule} (h : stagesEq.go x y = true) : x = y := by
  induction x generalizing y with
  | nil => cases y <;> simp [stagesEq.go] at h ⊢
  | cons p ps ih =>
    cases y with
    | nil => simp [stagesEq.go] at h
    | cons q qs =>
      simp only [stagesEq.go, Bool.and_eq_true, ruleEq_iff] at h
      rw [h.1, ih h.2]

theorem stagesEq_scanAll {a b : List (List Rule)} (h : stagesEq a b = true) (s : Str) :
    scanAll a s = scanAll b s := by
  induction a generalizing b s with
  | nil =>
    induction b with
    | nil => rfl
    | cons y b ih =>
      simp only [stagesEq, List.all_cons, Bool.and_eq_true, List.isEmpty_iff] at h
      simp only [h.1, scanAll, scan_nil_rules, List.drop_zero] at ih ⊢
      exact ih (by simpa [stagesEq] using h.2)
  | cons x a ih =>
    cases b with
    | nil => simp [stagesEq] at h
    | cons y b =>
      simp only [stagesEq, Bool.and_eq_true] at h
      rw [stagesEq_go h.1, scanAll, scanAll, ih h.2]

/-- Restricted to a script's alphabet, the pan-Brahmic cascade is the script's cascade. -/
def agreesOn (cs : List Nat) (d : BrahmicData) : Bool :=
  stagesEq (stages d.nfc) ((stages brahmicNfcRules).map (keepOver cs))

theorem brahmic_agrees_nfcChars :
    (Data.scripts.all fun d => agreesOn (bothChars d.nfc) d) = true := by decide +kernel

theorem brahmic_agrees_script :
    (Data.scripts.all fun d => agreesOn (dedupNat (scriptChars d) ++ joiners) d) = true := by
  decide +kernel

end Nisaba
