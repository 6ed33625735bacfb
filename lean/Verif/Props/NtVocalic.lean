import Verif.Props.NtLang
import Verif.Lemmas.NtVocalicOut
/-!
# natural_translit: the romanization PSAF of Tamil and Malayalam (C90)

The rule `VOCALIC_TR_I` has two outputs for a long vocalic sign, with and without the length sign.
The romanization is the same for both.
-/
namespace Nisaba.Props
open Nisaba Nisaba.NT

/-- C90, Tamil: the romanization PSAF. -/
theorem ta_psaf : OneOutput Ta.psaf LowerCase :=
  out_of (rest := fun m => Ta.txn ++ (Rom.VOCALIC_TR_I ++ Rom.TXN_TO_PSAF m)) (P := OKV M1t true)
    (fun m => by simp only [Ta.psaf, List.append_assoc])
    ta_psaf_blk fun _ h => al_okv (by simp) h

theorem ta_psaf_modes : ModesAgree Ta.psaf :=
  modes_of (rest := fun m => Ta.txn ++ (Rom.VOCALIC_TR_I ++ Rom.TXN_TO_PSAF m))
    (fun m => by simp only [Ta.psaf, List.append_assoc])
    (by simp only [Rom.TXN_TO_PSAF, print_modes])

/-- C90, Malayalam: the romanization PSAF. -/
theorem ml_psaf : OneOutput Ml.psaf LowerCase :=
  out_of (rest := fun m => Ml.txn ++ (Rom.VOCALIC_TR_I ++ Rom.TXN_TO_PSAF m)) (P := OKV M1 true)
    (fun m => by simp only [Ml.psaf, List.append_assoc])
    ml_psaf_blk fun _ h => al_okv (by simp) h

theorem ml_psaf_modes : ModesAgree Ml.psaf :=
  modes_of (rest := fun m => Ml.txn ++ (Rom.VOCALIC_TR_I ++ Rom.TXN_TO_PSAF m))
    (fun m => by simp only [Ml.psaf, List.append_assoc])
    (by simp only [Rom.TXN_TO_PSAF, print_modes])

/-- The text with the long vocalic sign after `k`. -/
def textKrr : List Chr := [a!"K", a!"R", a!"VCL", a!"LONG"].map Brh.sp

set_option maxRecDepth 100000 in
example : IsIso textKrr ∧ textKrr.flatMap Chr.glyph = a!"kr̥̄" :=
  ⟨spB_iff (by decide +kernel), by decide +kernel⟩

end Nisaba.Props
