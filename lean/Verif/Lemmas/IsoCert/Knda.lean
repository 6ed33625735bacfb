import Verif.Lemmas.IsoSearch
/-! Certificates for Knda, Orya, Takr, Mlym. -/
namespace Nisaba.IsoCert
open Seq Lean

set_option maxRecDepth 100000

run_cmd Elab.Command.liftCoreM <|
  Search.addCerts `Nisaba.IsoCert.Knda (isoArcs Data.knda) List.singleton noChar false
theorem knda_D : Knda.D.ok (isoArcs Data.knda) = true := by decide +kernel
theorem knda_full : Knda.D.full = true := by decide +kernel
theorem knda_T : Knda.T.ok ((isoArcs Data.knda).map (swapArc List.singleton)) = true := by decide +kernel
theorem knda_Tfull : Knda.T.full = true := by decide +kernel
theorem knda_P : pairsOk Knda.D Knda.T Knda.P noChar = true := by decide +kernel
theorem knda_iso : IsoOk Data.knda List.singleton noChar := ⟨_, _, _, knda_D, knda_full, knda_T, knda_Tfull, knda_P⟩

run_cmd Elab.Command.liftCoreM <|
  Search.addCerts `Nisaba.IsoCert.Orya (isoArcs Data.orya) List.singleton noChar false
theorem orya_D : Orya.D.ok (isoArcs Data.orya) = true := by decide +kernel
theorem orya_full : Orya.D.full = true := by decide +kernel
theorem orya_T : Orya.T.ok ((isoArcs Data.orya).map (swapArc List.singleton)) = true := by decide +kernel
theorem orya_Tfull : Orya.T.full = true := by decide +kernel
theorem orya_P : pairsOk Orya.D Orya.T Orya.P noChar = true := by decide +kernel
theorem orya_iso : IsoOk Data.orya List.singleton noChar := ⟨_, _, _, orya_D, orya_full, orya_T, orya_Tfull, orya_P⟩

run_cmd Elab.Command.liftCoreM <|
  Search.addCerts `Nisaba.IsoCert.Takr (isoArcs Data.takr) List.singleton noChar false
theorem takr_D : Takr.D.ok (isoArcs Data.takr) = true := by decide +kernel
theorem takr_full : Takr.D.full = true := by decide +kernel
theorem takr_T : Takr.T.ok ((isoArcs Data.takr).map (swapArc List.singleton)) = true := by decide +kernel
theorem takr_Tfull : Takr.T.full = true := by decide +kernel
theorem takr_P : pairsOk Takr.D Takr.T Takr.P noChar = true := by decide +kernel
theorem takr_iso : IsoOk Data.takr List.singleton noChar := ⟨_, _, _, takr_D, takr_full, takr_T, takr_Tfull, takr_P⟩

run_cmd Elab.Command.liftCoreM <|
  Search.addCerts `Nisaba.IsoCert.Mlym (isoArcs Data.mlym) List.singleton noChar false
theorem mlym_D : Mlym.D.ok (isoArcs Data.mlym) = true := by decide +kernel
theorem mlym_full : Mlym.D.full = true := by decide +kernel
theorem mlym_T : Mlym.T.ok ((isoArcs Data.mlym).map (swapArc List.singleton)) = true := by decide +kernel
theorem mlym_Tfull : Mlym.T.full = true := by decide +kernel
theorem mlym_P : pairsOk Mlym.D Mlym.T Mlym.P noChar = true := by decide +kernel
theorem mlym_iso : IsoOk Data.mlym List.singleton noChar := ⟨_, _, _, mlym_D, mlym_full, mlym_T, mlym_Tfull, mlym_P⟩

end Nisaba.IsoCert
