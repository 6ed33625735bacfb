import Verif.Lemmas.Fixed
import Verif.Lemmas.IsoCert.Knda
import Verif.Lemmas.IsoScripts
import Verif.Props.FixedKeys
/-!
# The Malayalam keys: checks over the tables
-/
namespace Nisaba.Fixed
open Pieces Keys

set_option maxRecDepth 100000

noncomputable section

/-- The rules and the letters they need, group by group, without `mO`. -/
def groups : List (List (Str × Str)) := pieces.map fun g => g.filter fun p => !(strEq p.1 mO)

def keyGroups : List (List Str) := groups.map fun g => g.map Prod.fst
def letterGroups : List (List Str) := groups.map fun g => g.map Prod.snd

/-- Rows of the certificate after a piece of each group. -/
def rowsOf : List (List Nat) := [
  [nat_lit 2, nat_lit 20, nat_lit 26],
  [nat_lit 1, nat_lit 5, nat_lit 6, nat_lit 7, nat_lit 8, nat_lit 9, nat_lit 10, nat_lit 12,
   nat_lit 13, nat_lit 15, nat_lit 16],
  [nat_lit 20, nat_lit 22, nat_lit 31, nat_lit 32], [nat_lit 20, nat_lit 22, nat_lit 31, nat_lit 32],
  [nat_lit 0]]

/-- Rows before a piece of each group. -/
def rowsBefore : List (List Nat) := [
  [nat_lit 0],
  [nat_lit 0, nat_lit 2, nat_lit 20, nat_lit 26, nat_lit 22, nat_lit 31, nat_lit 32,
   nat_lit 1, nat_lit 5, nat_lit 6, nat_lit 7, nat_lit 8, nat_lit 9, nat_lit 10, nat_lit 12,
   nat_lit 13, nat_lit 15, nat_lit 16],
  [nat_lit 0, nat_lit 2, nat_lit 20, nat_lit 26, nat_lit 22, nat_lit 31, nat_lit 32,
   nat_lit 1, nat_lit 5, nat_lit 6, nat_lit 7, nat_lit 8, nat_lit 9, nat_lit 10, nat_lit 12,
   nat_lit 13, nat_lit 15, nat_lit 16],
  [nat_lit 0, nat_lit 2, nat_lit 20, nat_lit 26, nat_lit 22, nat_lit 31, nat_lit 32],
  [nat_lit 0, nat_lit 2, nat_lit 20, nat_lit 26, nat_lit 22, nat_lit 31, nat_lit 32]]

/-- The pieces of a group are read from all rows before them. -/
def groupReads (B J : List Nat) : List Str → List Str → Bool
  | y :: ys, z :: zs =>
    bif B.all (fun j => readsOk IsoCert.Mlym.T J j y z) then groupReads B J ys zs else false
  | [], [] => true
  | _, _ => false

def groupsRead : List (List Nat) → List (List Nat) → List (List Str) → List (List Str) → Bool
  | B :: Bs, J :: Js, ys :: yss, zs :: zss =>
    bif groupReads B J ys zs then groupsRead Bs Js yss zss else false
  | [], [], [], [] => true
  | _, _, _, _ => false

def groupEq : List Str → List Str → Bool
  | x :: xs, y :: ys => bif strEq x y then groupEq xs ys else false
  | [], [] => true
  | _, _ => false

def groupsEq : List (List Str) → List (List Str) → Bool
  | x :: xs, y :: ys => bif groupEq x y then groupsEq xs ys else false
  | [], [] => true
  | _, _ => false

/-- The rules rewrite the pieces independently, and the certificate reads them. -/
theorem keys_ok : groupsK id keyGroups (piecesOk follow (fun G => groupsRead rowsBefore rowsOf G letterGroups)
    (sts Data.mlymFixed)) = true := by decide +kernel

/-- The letters are in NFC. -/
theorem letters_ok : groupsK id letterGroups (piecesOk follow
    (fun G => groupsEq G letterGroups) (stages Data.mlym.nfc)) = true := by decide +kernel

theorem keys_ascii : (keyGroups.all fun g => g.all fun s => s.all fun c =>
    Nat.ble (nat_lit 32) c && Nat.ble c (nat_lit 126) && !(Nat.beq c (nat_lit 0x5B)) &&
      !(Nat.beq c (nat_lit 0x5D))) = true := by decide +kernel

theorem rows_follow : (follow.all fun e => (rowsOf.getD e.1 []).all fun j =>
    memNat (rowsBefore.getD e.2 []) j) = true := by decide +kernel

theorem fixed_nonempty : LhsNonempty Data.mlymFixed := by
  have : (Data.mlymFixed.all fun p => !p.1.isEmpty) = true := by decide +kernel
  intro p hp e
  have := List.all_eq_true.1 this p hp
  rw [e] at this
  cases this

end

end Nisaba.Fixed
