import Verif.Lemmas.WfNormal
/-! Evaluation of the checks of `WfNormal`. -/
namespace Nisaba

set_option maxRecDepth 100000

theorem keepsCore_gujr : keepsCore Data.gujr = true := by decide +kernel
theorem keepsCore_guru : keepsCore Data.guru = true := by decide +kernel
theorem keepsCore_mlym : keepsCore Data.mlym = true := by decide +kernel
theorem keepsCore_orya : keepsCore Data.orya = true := by decide +kernel
theorem keepsCore_sinh : keepsCore Data.sinh = true := by decide +kernel
theorem keepsCore_taml : keepsCore Data.taml = true := by decide +kernel
theorem keepsCore_tirh : keepsCore Data.tirh = true := by decide +kernel

end Nisaba
