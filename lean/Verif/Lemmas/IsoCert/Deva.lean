import Verif.Lemmas.IsoSearch
/-! Certificates for Deva, Sylo, Thaa. -/
namespace Nisaba.IsoCert
open Seq Lean

set_option maxRecDepth 100000

run_cmd Elab.Command.liftCoreM <|
  Search.addCerts `Nisaba.IsoCert.Deva (isoArcs Data.deva) List.singleton noChar false
theorem deva_D : Deva.D.ok (isoArcs Data.deva) = true := by decide +kernel
theorem deva_full : Deva.D.full = true := by decide +kernel
theorem deva_T : Deva.T.ok ((isoArcs Data.deva).map (swapArc List.singleton)) = true := by decide +kernel
theorem deva_Tfull : Deva.T.full = true := by decide +kernel
theorem deva_P : pairsOk Deva.D Deva.T Deva.P noChar = true := by decide +kernel
theorem deva_iso : IsoOk Data.deva List.singleton noChar := ⟨_, _, _, deva_D, deva_full, deva_T, deva_Tfull, deva_P⟩

run_cmd Elab.Command.liftCoreM <|
  Search.addCerts `Nisaba.IsoCert.Sylo (isoArcs Data.sylo) List.singleton noChar false
theorem sylo_D : Sylo.D.ok (isoArcs Data.sylo) = true := by decide +kernel
theorem sylo_full : Sylo.D.full = true := by decide +kernel
theorem sylo_T : Sylo.T.ok ((isoArcs Data.sylo).map (swapArc List.singleton)) = true := by decide +kernel
theorem sylo_Tfull : Sylo.T.full = true := by decide +kernel
theorem sylo_P : pairsOk Sylo.D Sylo.T Sylo.P noChar = true := by decide +kernel
theorem sylo_iso : IsoOk Data.sylo List.singleton noChar := ⟨_, _, _, sylo_D, sylo_full, sylo_T, sylo_Tfull, sylo_P⟩

run_cmd Elab.Command.liftCoreM <|
  Search.addCerts `Nisaba.IsoCert.Thaa (isoArcs Data.thaa) List.singleton noChar false
theorem thaa_D : Thaa.D.ok (isoArcs Data.thaa) = true := by decide +kernel
theorem thaa_full : Thaa.D.full = true := by decide +kernel
theorem thaa_T : Thaa.T.ok ((isoArcs Data.thaa).map (swapArc List.singleton)) = true := by decide +kernel
theorem thaa_Tfull : Thaa.T.full = true := by decide +kernel
theorem thaa_P : pairsOk Thaa.D Thaa.T Thaa.P noChar = true := by decide +kernel
theorem thaa_iso : IsoOk Data.thaa List.singleton noChar := ⟨_, _, _, thaa_D, thaa_full, thaa_T, thaa_Tfull, thaa_P⟩

end Nisaba.IsoCert
