import Verif.Lemmas.IsoSearch
/-! Certificates for Beng, Bugi, Mtei, Tglg. -/
namespace Nisaba.IsoCert
open Seq Lean

set_option maxRecDepth 100000

run_cmd Elab.Command.liftCoreM <|
  Search.addCerts `Nisaba.IsoCert.Beng (isoArcs Data.beng) List.singleton noChar false
theorem beng_D : Beng.D.ok (isoArcs Data.beng) = true := by decide +kernel
theorem beng_full : Beng.D.full = true := by decide +kernel
theorem beng_T : Beng.T.ok ((isoArcs Data.beng).map (swapArc List.singleton)) = true := by decide +kernel
theorem beng_Tfull : Beng.T.full = true := by decide +kernel
theorem beng_P : pairsOk Beng.D Beng.T Beng.P noChar = true := by decide +kernel
theorem beng_iso : IsoOk Data.beng List.singleton noChar := ⟨_, _, _, beng_D, beng_full, beng_T, beng_Tfull, beng_P⟩

run_cmd Elab.Command.liftCoreM <|
  Search.addCerts `Nisaba.IsoCert.Bugi (isoArcs Data.bugi) List.singleton noChar false
theorem bugi_D : Bugi.D.ok (isoArcs Data.bugi) = true := by decide +kernel
theorem bugi_full : Bugi.D.full = true := by decide +kernel
theorem bugi_T : Bugi.T.ok ((isoArcs Data.bugi).map (swapArc List.singleton)) = true := by decide +kernel
theorem bugi_Tfull : Bugi.T.full = true := by decide +kernel
theorem bugi_P : pairsOk Bugi.D Bugi.T Bugi.P noChar = true := by decide +kernel
theorem bugi_iso : IsoOk Data.bugi List.singleton noChar := ⟨_, _, _, bugi_D, bugi_full, bugi_T, bugi_Tfull, bugi_P⟩

run_cmd Elab.Command.liftCoreM <|
  Search.addCerts `Nisaba.IsoCert.Mtei (isoArcs Data.mtei) List.singleton noChar false
theorem mtei_D : Mtei.D.ok (isoArcs Data.mtei) = true := by decide +kernel
theorem mtei_full : Mtei.D.full = true := by decide +kernel
theorem mtei_T : Mtei.T.ok ((isoArcs Data.mtei).map (swapArc List.singleton)) = true := by decide +kernel
theorem mtei_Tfull : Mtei.T.full = true := by decide +kernel
theorem mtei_P : pairsOk Mtei.D Mtei.T Mtei.P noChar = true := by decide +kernel
theorem mtei_iso : IsoOk Data.mtei List.singleton noChar := ⟨_, _, _, mtei_D, mtei_full, mtei_T, mtei_Tfull, mtei_P⟩

run_cmd Elab.Command.liftCoreM <|
  Search.addCerts `Nisaba.IsoCert.Tglg (isoArcs Data.tglg) List.singleton noChar false
theorem tglg_D : Tglg.D.ok (isoArcs Data.tglg) = true := by decide +kernel
theorem tglg_full : Tglg.D.full = true := by decide +kernel
theorem tglg_T : Tglg.T.ok ((isoArcs Data.tglg).map (swapArc List.singleton)) = true := by decide +kernel
theorem tglg_Tfull : Tglg.T.full = true := by decide +kernel
theorem tglg_P : pairsOk Tglg.D Tglg.T Tglg.P noChar = true := by decide +kernel
theorem tglg_iso : IsoOk Data.tglg List.singleton noChar := ⟨_, _, _, tglg_D, tglg_full, tglg_T, tglg_Tfull, tglg_P⟩

end Nisaba.IsoCert
