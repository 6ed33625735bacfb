import Verif.Lemmas.IsoSearch
/-! Certificates for Tirh, Sinh, Newa, Taml, Telu. -/
namespace Nisaba.IsoCert
open Seq Lean

set_option maxRecDepth 100000

run_cmd Elab.Command.liftCoreM <|
  Search.addCerts `Nisaba.IsoCert.Tirh (isoArcs Data.tirh) List.singleton noChar false
theorem tirh_D : Tirh.D.ok (isoArcs Data.tirh) = true := by decide +kernel
theorem tirh_full : Tirh.D.full = true := by decide +kernel
theorem tirh_T : Tirh.T.ok ((isoArcs Data.tirh).map (swapArc List.singleton)) = true := by decide +kernel
theorem tirh_Tfull : Tirh.T.full = true := by decide +kernel
theorem tirh_P : pairsOk Tirh.D Tirh.T Tirh.P noChar = true := by decide +kernel
theorem tirh_iso : IsoOk Data.tirh List.singleton noChar := ⟨_, _, _, tirh_D, tirh_full, tirh_T, tirh_Tfull, tirh_P⟩

run_cmd Elab.Command.liftCoreM <|
  Search.addCerts `Nisaba.IsoCert.Sinh (isoArcs Data.sinh) List.singleton noChar false
theorem sinh_D : Sinh.D.ok (isoArcs Data.sinh) = true := by decide +kernel
theorem sinh_full : Sinh.D.full = true := by decide +kernel
theorem sinh_T : Sinh.T.ok ((isoArcs Data.sinh).map (swapArc List.singleton)) = true := by decide +kernel
theorem sinh_Tfull : Sinh.T.full = true := by decide +kernel
theorem sinh_P : pairsOk Sinh.D Sinh.T Sinh.P noChar = true := by decide +kernel
theorem sinh_iso : IsoOk Data.sinh List.singleton noChar := ⟨_, _, _, sinh_D, sinh_full, sinh_T, sinh_Tfull, sinh_P⟩

run_cmd Elab.Command.liftCoreM <|
  Search.addCerts `Nisaba.IsoCert.Newa (isoArcs Data.newa) List.singleton noChar false
theorem newa_D : Newa.D.ok (isoArcs Data.newa) = true := by decide +kernel
theorem newa_full : Newa.D.full = true := by decide +kernel
theorem newa_T : Newa.T.ok ((isoArcs Data.newa).map (swapArc List.singleton)) = true := by decide +kernel
theorem newa_Tfull : Newa.T.full = true := by decide +kernel
theorem newa_P : pairsOk Newa.D Newa.T Newa.P noChar = true := by decide +kernel
theorem newa_iso : IsoOk Data.newa List.singleton noChar := ⟨_, _, _, newa_D, newa_full, newa_T, newa_Tfull, newa_P⟩

run_cmd Elab.Command.liftCoreM <|
  Search.addCerts `Nisaba.IsoCert.Taml (isoArcs Data.taml) List.singleton noChar false
theorem taml_D : Taml.D.ok (isoArcs Data.taml) = true := by decide +kernel
theorem taml_full : Taml.D.full = true := by decide +kernel
theorem taml_T : Taml.T.ok ((isoArcs Data.taml).map (swapArc List.singleton)) = true := by decide +kernel
theorem taml_Tfull : Taml.T.full = true := by decide +kernel
theorem taml_P : pairsOk Taml.D Taml.T Taml.P noChar = true := by decide +kernel
theorem taml_iso : IsoOk Data.taml List.singleton noChar := ⟨_, _, _, taml_D, taml_full, taml_T, taml_Tfull, taml_P⟩

run_cmd Elab.Command.liftCoreM <|
  Search.addCerts `Nisaba.IsoCert.Telu (isoArcs Data.telu) List.singleton noChar false
theorem telu_D : Telu.D.ok (isoArcs Data.telu) = true := by decide +kernel
theorem telu_full : Telu.D.full = true := by decide +kernel
theorem telu_T : Telu.T.ok ((isoArcs Data.telu).map (swapArc List.singleton)) = true := by decide +kernel
theorem telu_Tfull : Telu.T.full = true := by decide +kernel
theorem telu_P : pairsOk Telu.D Telu.T Telu.P noChar = true := by decide +kernel
theorem telu_iso : IsoOk Data.telu List.singleton noChar := ⟨_, _, _, telu_D, telu_full, telu_T, telu_Tfull, telu_P⟩

end Nisaba.IsoCert
