import Verif.Lemmas.WfNormal
/-! Evaluation of the checks of `WfNormal`. -/
namespace Nisaba

set_option maxRecDepth 100000

theorem keepsCore_beng : keepsCore Data.beng = true := by decide +kernel
theorem keepsCore_knda : keepsCore Data.knda = true := by decide +kernel
theorem keepsCore_newa : keepsCore Data.newa = true := by decide +kernel
theorem keepsCore_telu : keepsCore Data.telu = true := by decide +kernel

end Nisaba
