import Verif.Lemmas.IsoSearch
/-! Certificates for Gujr, Guru, Lepc, Limb. -/
namespace Nisaba.IsoCert
open Seq Lean

set_option maxRecDepth 100000

run_cmd Elab.Command.liftCoreM <|
  Search.addCerts `Nisaba.IsoCert.Gujr (isoArcs Data.gujr) List.singleton noChar false
theorem gujr_D : Gujr.D.ok (isoArcs Data.gujr) = true := by decide +kernel
theorem gujr_full : Gujr.D.full = true := by decide +kernel
theorem gujr_T : Gujr.T.ok ((isoArcs Data.gujr).map (swapArc List.singleton)) = true := by decide +kernel
theorem gujr_Tfull : Gujr.T.full = true := by decide +kernel
theorem gujr_P : pairsOk Gujr.D Gujr.T Gujr.P noChar = true := by decide +kernel
theorem gujr_iso : IsoOk Data.gujr List.singleton noChar := ⟨_, _, _, gujr_D, gujr_full, gujr_T, gujr_Tfull, gujr_P⟩

run_cmd Elab.Command.liftCoreM <|
  Search.addCerts `Nisaba.IsoCert.Guru (isoArcs Data.guru) shaToSa isSha false
theorem guru_D : Guru.D.ok (isoArcs Data.guru) = true := by decide +kernel
theorem guru_full : Guru.D.full = true := by decide +kernel
theorem guru_T : Guru.T.ok ((isoArcs Data.guru).map (swapArc shaToSa)) = true := by decide +kernel
theorem guru_Tfull : Guru.T.full = true := by decide +kernel
theorem guru_P : pairsOk Guru.D Guru.T Guru.P isSha = true := by decide +kernel
theorem guru_iso : IsoOk Data.guru shaToSa isSha := ⟨_, _, _, guru_D, guru_full, guru_T, guru_Tfull, guru_P⟩

run_cmd Elab.Command.liftCoreM <|
  Search.addCerts `Nisaba.IsoCert.Lepc (isoArcs Data.lepc) List.singleton noChar true
theorem lepc_D : Lepc.D.ok (isoArcs Data.lepc) = true := by decide +kernel
theorem lepc_full : Lepc.D.full = true := by decide +kernel
theorem lepc_T : Lepc.T.ok ((isoArcs Data.lepc).map (swapArc List.singleton)) = true := by decide +kernel
theorem lepc_Tfull : Lepc.T.full = true := by decide +kernel
theorem lepc_P : pairsOk Lepc.D Lepc.T Lepc.P noChar = true := by decide +kernel
theorem lepc_iso : IsoOk Data.lepc List.singleton noChar := ⟨_, _, _, lepc_D, lepc_full, lepc_T, lepc_Tfull, lepc_P⟩

run_cmd Elab.Command.liftCoreM <|
  Search.addCerts `Nisaba.IsoCert.Limb (isoArcs Data.limb) List.singleton noChar false
theorem limb_D : Limb.D.ok (isoArcs Data.limb) = true := by decide +kernel
theorem limb_full : Limb.D.full = true := by decide +kernel
theorem limb_T : Limb.T.ok ((isoArcs Data.limb).map (swapArc List.singleton)) = true := by decide +kernel
theorem limb_Tfull : Limb.T.full = true := by decide +kernel
theorem limb_P : pairsOk Limb.D Limb.T Limb.P noChar = true := by decide +kernel
theorem limb_iso : IsoOk Data.limb List.singleton noChar := ⟨_, _, _, limb_D, limb_full, limb_T, limb_Tfull, limb_P⟩

end Nisaba.IsoCert
