import Verif.Lemmas.Visual
namespace Nisaba
set_option maxRecDepth 100000
theorem visualOk_all : (Data.scripts.all visualOk) = true := by decide +kernel
end Nisaba
