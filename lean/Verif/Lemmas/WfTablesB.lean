import Verif.Lemmas.WfNormal
/-! Evaluation of the checks of `WfNormal`. -/
namespace Nisaba

set_option maxRecDepth 100000

theorem keepsCore_deva : keepsCore Data.deva = true := by decide +kernel
theorem keepsCore_takr : keepsCore Data.takr = true := by decide +kernel
theorem keepsCore_tglg : keepsCore Data.tglg = true := by decide +kernel
theorem keepsCore_thaa : keepsCore Data.thaa = true := by decide +kernel
theorem keepsCore_lepc : keepsCore Data.lepc = true := by decide +kernel
theorem keepsCore_limb : keepsCore Data.limb = true := by decide +kernel
theorem keepsCore_mtei : keepsCore Data.mtei = true := by decide +kernel
theorem keepsCore_bugi : keepsCore Data.bugi = true := by decide +kernel
theorem keepsCore_sylo : keepsCore Data.sylo = true := by decide +kernel

end Nisaba
